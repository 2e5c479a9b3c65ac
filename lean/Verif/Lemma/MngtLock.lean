import Verif.Model.MngtLock
import Verif.Props.AsyncLock

/-! Lemmas about the life of a cache and its management lock. -/

namespace Verif.MngtLock

open Verif.AsyncLock (Waiter collect readers writers)

def b2n (b : Bool) : Nat := if b then 1 else 0

/-- References of the cache that a place in a call stands for. -/
def Pc.c : Pc → Nat
  | .lk1 _ | .lk2 _ | .nm _ | .t1 _ | .t2 _ | .t3 _ | .unl => 1
  | _ => 0

/-- References of `refcnt.lock`. -/
def Pc.l : Pc → Nat
  | .lk2 _ | .lk3 | .t2 _ | .t3 _ | .tEnd => 1
  | _ => 0

/-- The read locks a place stands for. -/
def Pc.r : Pc → Nat
  | .t3 w => if w.write then 0 else 1
  | _ => 0

/-- The write locks. -/
def Pc.w : Pc → Nat
  | .t3 w => if w.write then 1 else 0
  | _ => 0

/-- Whether the call `k` is at this place, its caller not yet told. -/
def Pc.pend (k : Nat) : Pc → Nat
  | .lk1 w | .lk2 w | .nm w | .t1 w | .t2 w | .t3 w => if w.id = k then 1 else 0
  | _ => 0

def Pc.stops : Pc → Bool
  | .stop0 | .stop2 | .stop3 | .stop4 => true
  | _ => false

/-- Places where the caller has a reference of its own. -/
def Pc.needs : Pc → Bool
  | .lk1 _ | .lk2 _ | .nm _ | .lk3 | .t1 _ | .t2 _ | .t3 _ | .tEnd => true
  | _ => false

def Task.c (t : Task) : Nat := t.own + t.pc.c + (if t.dn = 1 ∨ t.dn = 2 then 1 else 0)

def sumT (s : St) (f : Task → Nat) : Nat := (s.tasks.map f).sum

def cnt (k : Nat) (l : List Waiter) : Nat := l.countP (fun w => w.id == k)
def cntT (k : Nat) (l : List (Nat × Bool)) : Nat := l.countP (fun w => w.1 == k)

theorem sum_set (l : List Task) (f : Task → Nat) (i : Nat) (t t' : Task) (h : l[i]? = some t) :
    ((l.set i t').map f).sum + f t = (l.map f).sum + f t' := by
  induction l generalizing i with
  | nil => simp at h
  | cons x l ih =>
    cases i with
    | zero => simp at h; subst h; simp; omega
    | succ i =>
      simp at h
      have := ih i h
      simp only [List.set_cons_succ, List.map_cons, List.sum_cons]
      omega

theorem sum_ge (l : List Task) (f : Task → Nat) (i : Nat) (t : Task) (h : l[i]? = some t) :
    f t ≤ (l.map f).sum := by
  induction l generalizing i with
  | nil => simp at h
  | cons x l ih =>
    cases i with
    | zero => simp at h; subst h; simp
    | succ i =>
      simp at h
      have := ih i h
      simp only [List.map_cons, List.sum_cons]
      omega

theorem sum_two (l : List Task) (f : Task → Nat) (i j : Nat) (t u : Task) (h : l[i]? = some t)
    (g : l[j]? = some u) (hij : i ≠ j) : f t + f u ≤ (l.map f).sum := by
  induction l generalizing i j with
  | nil => simp at h
  | cons x l ih =>
    cases i with
    | zero =>
      cases j with
      | zero => omega
      | succ j =>
        simp at h g
        have := sum_ge l f j u g
        subst h
        simp only [List.map_cons, List.sum_cons]
        omega
    | succ i =>
      cases j with
      | zero =>
        simp at h g
        have := sum_ge l f i t h
        subst g
        simp only [List.map_cons, List.sum_cons]
        omega
      | succ j =>
        simp at h g
        have := ih i j h g (by omega)
        simp only [List.map_cons, List.sum_cons]
        omega

theorem cnt_append (k : Nat) (a b : List Waiter) : cnt k (a ++ b) = cnt k a + cnt k b := by simp [cnt]
theorem cnt_one (k : Nat) (w : Waiter) : cnt k [w] = if w.id = k then 1 else 0 := by
  simp [cnt, List.countP_cons]
theorem cntT_append (k : Nat) (a b : List (Nat × Bool)) : cntT k (a ++ b) = cntT k a + cntT k b := by
  simp [cntT]
theorem cntT_one (k : Nat) (w : Waiter) (b : Bool) : cntT k [(w.id, b)] = if w.id = k then 1 else 0 := by
  simp [cntT, List.countP_cons]
theorem cnt_erase (k : Nat) (l : List Waiter) (w : Waiter) (h : w ∈ l) :
    cnt k (l.erase w) + (if w.id = k then 1 else 0) = cnt k l := by
  have := (List.perm_cons_erase h).countP_eq (fun w : Waiter => w.id == k)
  unfold cnt
  rw [this, List.countP_cons]
  simp
theorem len_erase (l : List Waiter) (w : Waiter) (h : w ∈ l) : (l.erase w).length + 1 = l.length := by
  rw [List.length_erase_of_mem h]
  have := List.length_pos_of_mem h
  omega
theorem readers_one (w : Waiter) : readers [w] = if w.write then 0 else 1 := by
  simp [readers, List.countP_cons]; cases w.write <;> simp
theorem writers_one (w : Waiter) : writers [w] = if w.write then 1 else 0 := by
  simp [writers, List.countP_cons]

/-- What a step has in hand, besides what is in the state; below zero: what it owes. -/
structure Cr where
  c : Int := 0
  l : Int := 0
  r : Int := 0
  w : Int := 0
  k : Nat → Int := fun _ => 0

/-- The accounts: counters are the sums of what is held. -/
structure Acc (s : St) (h : Cr) : Prop where
  c : (s.cref : Int) = s.base + sumT s Task.c + s.q.length + s.grant.length + s.fail.length + s.held.length +
    s.leaked + b2n s.lCb + h.c
  l : (s.lref : Int) = sumT s (fun t => t.pc.l) + h.l
  rd : (s.rd : Int) = readers s.grant + readers s.held + sumT s (fun t => t.pc.r) + h.r
  wr : (s.wr : Int) = writers s.grant + writers s.held + sumT s (fun t => t.pc.w) + h.w
  ex : s.wr = 0 ∨ (s.wr = 1 ∧ s.rd = 0)
  ids : ∀ k, (sumT s (fun t => t.pc.pend k) + cnt k s.q + cnt k s.grant + cnt k s.fail + cntT k s.told : Int) +
    h.k k = s.used.count k

/-- The state. -/
structure Ok (s : St) : Prop where
  uaf : s.uaf = false
  bug : s.bug = false
  use : s.deadUse = false
  nodup : s.used.Nodup
  freed : s.freed = true → s.cref = 0 ∧ s.cFrz = true
  cb : s.cCb = true → 0 < s.cref ∧ s.cFrz = true
  frz : s.cFrz = true → s.lFrz = true ∧ (s.cCb = true ∨ s.freed = true)
  live : s.stopping = false → s.base = 1 ∧ s.lFrz = false ∧ s.inList = true
  list : s.inList = true → s.base = 1
  lcb : s.lCb = true → s.lFrz = true ∧ 0 < s.lref
  dead : s.dead = true → s.lFrz = true ∧ s.lref = 0 ∧ s.q = []
  stops : sumT s (fun t => b2n t.pc.stops) ≤ 1
  tasks : ∀ (i : Nat) (t : Task), s.tasks[i]? = some t →
    (t.pc.needs = true → 1 ≤ t.own) ∧
    (t.pc.stops = true → s.stopping = true ∧ s.base = 1) ∧
    (t.pc = .stop0 → s.lFrz = false ∧ s.inList = true) ∧
    (t.pc = .stop2 → s.lFrz = true ∧ s.cFrz = false) ∧
    (t.pc = .stop4 → s.inList = false) ∧
    (t.dn ≠ 0 → (1 ≤ t.own ∨ t.pc = .stop2) ∧ s.lFrz = true ∧ s.lref = 0)

theorem acc_conv {s : St} {h h' : Cr} (a : Acc s h) (hc : h.c = h'.c) (hl : h.l = h'.l) (hr : h.r = h'.r)
    (hw : h.w = h'.w) (hk : ∀ k, h.k k = h'.k k) : Acc s h' := by
  obtain ⟨a1, a2, a3, a4, a5, a6⟩ := a
  refine ⟨?_, ?_, ?_, ?_, a5, ?_⟩
  · omega
  · omega
  · omega
  · omega
  · intro k
    have := a6 k
    have := hk k
    omega

theorem acc_setT {s : St} {h : Cr} (a : Acc s h) (i : Nat) (t t' : Task) (ht : s.tasks[i]? = some t) (h' : Cr)
    (hc : h'.c + t'.c = h.c + t.c) (hl : h'.l + t'.pc.l = h.l + t.pc.l) (hr : h'.r + t'.pc.r = h.r + t.pc.r)
    (hw : h'.w + t'.pc.w = h.w + t.pc.w) (hk : ∀ k, h'.k k + t'.pc.pend k = h.k k + t.pc.pend k) :
    Acc (s.setT i t') h' := by
  obtain ⟨a1, a2, a3, a4, a5, a6⟩ := a
  have S := fun f => sum_set s.tasks f i t t' ht
  refine ⟨?_, ?_, ?_, ?_, a5, ?_⟩
  · have := S Task.c
    simp only [St.setT, sumT] at a1 ⊢; omega
  · have := S (fun t => t.pc.l)
    simp only [St.setT, sumT] at a2 ⊢; omega
  · have := S (fun t => t.pc.r)
    simp only [St.setT, sumT] at a3 ⊢; omega
  · have := S (fun t => t.pc.w)
    simp only [St.setT, sumT] at a4 ⊢; omega
  · intro k
    have := S (fun t => t.pc.pend k)
    have := a6 k
    have := hk k
    simp only [St.setT, sumT] at *; omega

theorem acc_decC {s : St} {h : Cr} (a : Acc s h) (hp : 0 < s.cref) :
    Acc s.decC { h with c := h.c - 1 } := by
  obtain ⟨a1, a2, a3, a4, a5, a6⟩ := a
  unfold St.decC
  rw [if_neg (by omega)]
  split
  · refine ⟨?_, a2, a3, a4, a5, a6⟩
    simp only [sumT] at a1 ⊢; omega
  · refine ⟨?_, a2, a3, a4, a5, a6⟩
    simp only [sumT] at a1 ⊢; omega

theorem ok_decC {s : St} (o : Ok s) (hp : 0 < s.cref) : Ok s.decC := by
  obtain ⟨o1, o2, o3, o4, o5, o6, o7, o8, o9, o10, o11, o12, o13⟩ := o
  unfold St.decC
  rw [if_neg (by omega)]
  split
  · rename_i g
    exact ⟨o1, o2, o3, o4, fun _ => ⟨rfl, (o6 g.2).2⟩, (fun h => by cases h), fun h => ⟨(o7 h).1, Or.inr rfl⟩, o8,
      o9, o10, o11, o12, o13⟩
  · rename_i g
    exact ⟨o1, o2, o3, o4, fun h => ⟨by have := (o5 h).1; simp only; omega, (o5 h).2⟩,
      fun h => ⟨by
        have := (o6 h).1
        have : s.cref ≠ 1 := fun e => g ⟨e, h⟩
        simp only; omega, (o6 h).2⟩, o7, o8, o9, o10, o11, o12, o13⟩

theorem acc_tell {s : St} {h : Cr} (a : Acc s h) (w : Waiter) (b : Bool) :
    Acc (s.tell w b) { h with k := fun k => h.k k - (if w.id = k then 1 else 0) } := by
  obtain ⟨a1, a2, a3, a4, a5, a6⟩ := a
  refine ⟨a1, a2, a3, a4, a5, ?_⟩
  intro k
  have := a6 k
  simp only [St.tell, cntT_append, cntT_one, sumT] at this ⊢
  split <;> omega

theorem ok_tell {s : St} (o : Ok s) (w : Waiter) (b : Bool) : Ok (s.tell w b) := by
  obtain ⟨o1, o2, o3, o4, o5, o6, o7, o8, o9, o10, o11, o12, o13⟩ := o
  exact ⟨o1, o2, o3, o4, o5, o6, o7, o8, o9, o10, o11, o12, o13⟩

theorem ok_setT {s : St} (o : Ok s) (i : Nat) (t t' : Task) (ht : s.tasks[i]? = some t)
    (h1 : t'.pc.needs = true → 1 ≤ t'.own)
    (h2 : t'.pc.stops = true → t.pc.stops = true)
    (h3 : t'.pc = .stop0 → t.pc = .stop0)
    (h4 : t'.pc = .stop2 → t.pc = .stop2)
    (h5 : t'.pc = .stop4 → s.inList = false)
    (h6 : t'.dn ≠ 0 → (1 ≤ t'.own ∨ t'.pc = .stop2) ∧ s.lFrz = true ∧ s.lref = 0) : Ok (s.setT i t') := by
  obtain ⟨o1, o2, o3, o4, o5, o6, o7, o8, o9, o10, o11, o12, o13⟩ := o
  refine ⟨o1, o2, o3, o4, o5, o6, o7, o8, o9, o10, o11, ?_, ?_⟩
  · have := sum_set s.tasks (fun t => b2n t.pc.stops) i t t' ht
    simp only [sumT, St.setT] at o12 ⊢
    have : b2n t'.pc.stops ≤ b2n t.pc.stops := by
      unfold b2n
      by_cases h : t'.pc.stops = true
      · simp [h, h2 h]
      · rw [if_neg h]; omega
    omega
  · intro j u hu
    simp only [St.setT] at hu ⊢
    rw [List.getElem?_set] at hu
    have hi : i < s.tasks.length := by
      rw [List.getElem?_eq_some_iff] at ht; exact ht.1
    by_cases e : i = j
    · rw [if_pos e] at hu
      rw [if_pos (by omega)] at hu
      cases hu
      have := o13 i t ht
      exact ⟨h1, fun h => this.2.1 (h2 h), fun h => this.2.2.1 (h3 h), fun h => this.2.2.2.1 (h4 h), h5, h6⟩
    · rw [if_neg e] at hu
      exact o13 j u hu

theorem touch_id {s : St} (o : Ok s) (h : 0 < s.cref) : s.touch = s := by
  unfold St.touch
  rw [if_neg]
  intro h'
  have := (o.freed h').1
  omega

theorem touch_id' {s : St} (h : s.freed = false) : s.touch = s := by
  unfold St.touch
  rw [if_neg (by simp [h])]

/-- Only one task is stopping the cache. -/
theorem one_stop {s : St} (o : Ok s) {i j : Nat} {t u : Task} (ht : s.tasks[i]? = some t)
    (hu : s.tasks[j]? = some u) (h : t.pc.stops = true) (g : u.pc.stops = true) : i = j := by
  by_cases e : i = j
  · exact e
  · have := sum_two s.tasks (fun t => b2n t.pc.stops) i j t u ht hu e
    have := o.stops
    simp only [sumT, b2n, h, g, if_true] at this ⊢
    simp only [b2n, h, g, if_true] at *
    omega

/-- A task's references are counted. -/
theorem cref_ge {s : St} {h : Cr} (a : Acc s h) (hc : 0 ≤ h.c) {i : Nat} {t : Task} (ht : s.tasks[i]? = some t) :
    s.base + t.c + s.q.length + s.grant.length + s.fail.length + s.held.length ≤ s.cref := by
  have := sum_ge s.tasks Task.c i t ht
  have := a.c
  simp only [sumT] at this
  omega

theorem lref_ge {s : St} {h : Cr} (a : Acc s h) (hc : 0 ≤ h.l) {i : Nat} {t : Task} (ht : s.tasks[i]? = some t) :
    t.pc.l ≤ s.lref := by
  have := sum_ge s.tasks (fun t => t.pc.l) i t ht
  have := a.l
  simp only [sumT] at this
  omega

theorem acc_release {s : St} {h : Cr} (a : Acc s h) (h1 : s.rd = 0) (h2 : s.wr = 0) : Acc s.release h := by
  obtain ⟨a1, a2, a3, a4, a5, a6⟩ := a
  obtain ⟨c1, c2, c3⟩ := Verif.AsyncLock.collect_spec s.q s.rd s.wr
  obtain ⟨c4, c5, -, -⟩ := c3 h2
  unfold St.release
  have hq := congrArg List.length c1
  rw [List.length_append] at hq
  refine ⟨?_, a2, ?_, ?_, ?_, ?_⟩
  · simp only [sumT, List.length_append] at a1 ⊢
    omega
  · simp only [sumT, Verif.AsyncLock.readers_append] at a3 ⊢
    omega
  · simp only [sumT, Verif.AsyncLock.writers_append] at a4 ⊢
    omega
  · exact c5
  · intro k
    have g := a6 k
    have hk := congrArg (cnt k) c1
    rw [cnt_append] at hk
    simp only [sumT, cnt_append] at g ⊢
    omega

theorem ok_release {s : St} (o : Ok s) : Ok s.release := by
  obtain ⟨o1, o2, o3, o4, o5, o6, o7, o8, o9, o10, o11, o12, o13⟩ := o
  refine ⟨o1, o2, o3, o4, o5, o6, o7, o8, o9, o10, ?_, o12, o13⟩
  intro h
  obtain ⟨g1, g2, g3⟩ := o11 h
  refine ⟨g1, g2, ?_⟩
  simp only [St.release, g3, collect]

theorem release_keeps (s : St) : s.release.stopping = s.stopping ∧ s.release.cref = s.cref ∧
    s.release.tasks = s.tasks ∧ s.release.lref = s.lref ∧ s.release.lFrz = s.lFrz ∧ s.release.leaked = s.leaked ∧
    s.release.held = s.held ∧ s.release.told = s.told ∧ s.release.freed = s.freed :=
  ⟨rfl, rfl, rfl, rfl, rfl, rfl, rfl, rfl, rfl⟩

def St.noteU (s : St) : St := if s.dead then { s with deadUnl := true } else s

theorem noteU_acc {s : St} {h : Cr} (a : Acc s h) : Acc s.noteU h := by
  obtain ⟨a1, a2, a3, a4, a5, a6⟩ := a
  unfold St.noteU
  split
  · exact ⟨a1, a2, a3, a4, a5, a6⟩
  · exact ⟨a1, a2, a3, a4, a5, a6⟩

theorem noteU_ok {s : St} (o : Ok s) : Ok s.noteU := by
  unfold St.noteU
  split
  · obtain ⟨o1, o2, o3, o4, o5, o6, o7, o8, o9, o10, o11, o12, o13⟩ := o
    exact ⟨o1, o2, o3, o4, o5, o6, o7, o8, o9, o10, o11, o12, o13⟩
  · exact o

theorem noteU_keeps (s : St) : s.noteU.stopping = s.stopping ∧ s.noteU.cref = s.cref ∧
    s.noteU.tasks = s.tasks ∧ s.noteU.lref = s.lref ∧ s.noteU.lFrz = s.lFrz ∧ s.noteU.leaked = s.leaked ∧
    s.noteU.held = s.held ∧ s.noteU.told = s.told ∧ s.noteU.rd = s.rd ∧ s.noteU.wr = s.wr ∧
    s.noteU.freed = s.freed := by
  unfold St.noteU
  split <;> exact ⟨rfl, rfl, rfl, rfl, rfl, rfl, rfl, rfl, rfl, rfl, rfl⟩

theorem unlockL_eq (s : St) (w : Waiter) : s.unlockL w =
    if w.write then
      if s.noteU.rd ≠ 0 ∨ s.noteU.wr = 0 then { s.noteU with bug := true } else St.release { s.noteU with wr := 0 }
    else
      if s.noteU.rd = 0 ∨ s.noteU.wr ≠ 0 then { s.noteU with bug := true }
      else if s.noteU.rd ≠ 1 then { s.noteU with rd := s.noteU.rd - 1 }
        else St.release { s.noteU with rd := 0 } := rfl

/-- Whether the lock is held the way `w` is. -/
def St.has (s : St) (w : Waiter) : Prop := if w.write then 0 < s.wr else 0 < s.rd

theorem acc_setW {s : St} {h : Cr} (a : Acc s h) (n : Nat) (he : n = 0 ∨ (n = 1 ∧ s.rd = 0)) :
    Acc { s with wr := n } { h with w := h.w + n - s.wr } := by
  obtain ⟨a1, a2, a3, a4, a5, a6⟩ := a
  refine ⟨a1, a2, a3, ?_, he, a6⟩
  simp only [sumT] at a4 ⊢
  omega

theorem acc_setR {s : St} {h : Cr} (a : Acc s h) (n : Nat) (he : s.wr = 0) :
    Acc { s with rd := n } { h with r := h.r + n - s.rd } := by
  obtain ⟨a1, a2, a3, a4, a5, a6⟩ := a
  refine ⟨a1, a2, ?_, a4, Or.inl he, a6⟩
  simp only [sumT] at a3 ⊢
  omega

theorem ok_setW {s : St} (o : Ok s) (n : Nat) : Ok { s with wr := n } := by
  obtain ⟨o1, o2, o3, o4, o5, o6, o7, o8, o9, o10, o11, o12, o13⟩ := o
  exact ⟨o1, o2, o3, o4, o5, o6, o7, o8, o9, o10, o11, o12, o13⟩

theorem ok_setR {s : St} (o : Ok s) (n : Nat) : Ok { s with rd := n } := by
  obtain ⟨o1, o2, o3, o4, o5, o6, o7, o8, o9, o10, o11, o12, o13⟩ := o
  exact ⟨o1, o2, o3, o4, o5, o6, o7, o8, o9, o10, o11, o12, o13⟩

/-- Unlocking gives the lock back. -/
theorem unlockL_spec {s : St} {h : Cr} (a : Acc s h) (o : Ok s) (w : Waiter) (hh : s.has w) :
    Acc (s.unlockL w) { h with r := h.r - (if w.write then 0 else 1), w := h.w - (if w.write then 1 else 0) } ∧
    Ok (s.unlockL w) ∧ (s.unlockL w).stopping = s.stopping ∧ (s.unlockL w).cref = s.cref ∧
    (s.unlockL w).tasks = s.tasks ∧ (s.unlockL w).lref = s.lref ∧ (s.unlockL w).lFrz = s.lFrz ∧
    (s.unlockL w).leaked = s.leaked ∧ (s.unlockL w).held = s.held ∧ (s.unlockL w).told = s.told ∧
    (s.unlockL w).freed = s.freed := by
  rw [unlockL_eq]
  obtain ⟨k1, k2, k3, k4, k5, k6, k7, k8, k9, k10, k11⟩ := noteU_keeps s
  have a' := noteU_acc a
  have o' := noteU_ok o
  have e := a'.ex
  unfold St.has at hh
  rw [← k9, ← k10] at hh
  revert k1 k2 k3 k4 k5 k6 k7 k8 k11
  generalize s.noteU = s' at *
  intro k1 k2 k3 k4 k5 k6 k7 k8 k11
  cases hw : w.write
  · simp only [hw, Bool.false_eq_true, if_false] at hh ⊢
    rw [if_neg (by omega)]
    have hwr : s'.wr = 0 := by omega
    split
    · refine ⟨?_, ok_setR o' _, k1, k2, k3, k4, k5, k6, k7, k8, k11⟩
      have := acc_setR a' (s'.rd - 1) hwr
      have e2 : ((s'.rd - 1 : Nat) : Int) = s'.rd - 1 := by omega
      exact acc_conv this rfl rfl (by simp only; omega) (by simp only; omega) (fun _ => rfl)
    · rename_i g
      refine ⟨?_, ok_release (ok_setR o' _), k1, k2, k3, k4, k5, k6, k7, k8, k11⟩
      have := acc_release (acc_setR a' 0 hwr) rfl hwr
      exact acc_conv this rfl rfl (by simp only; omega) (by simp only; omega) (fun _ => rfl)
  · simp only [hw, if_true] at hh ⊢
    rw [if_neg (by omega)]
    refine ⟨?_, ok_release (ok_setW o' _), k1, k2, k3, k4, k5, k6, k7, k8, k11⟩
    have := acc_release (acc_setW a' 0 (Or.inl rfl)) (by show s'.rd = 0; omega) rfl
    exact acc_conv this rfl rfl (by simp only; omega) (by simp only; omega) (fun _ => rfl)

theorem useL_id {s : St} (h : s.dead = false) : s.useL = s := by
  unfold St.useL
  rw [if_neg (by simp [h])]

/-- Taking a free lock. -/
theorem take_spec {s : St} {h : Cr} (a : Acc s h) (o : Ok s) (w : Waiter) (hf : s.free w = true) :
    Acc (s.take w) { h with r := h.r + (if w.write then 0 else 1), w := h.w + (if w.write then 1 else 0) } ∧
    Ok (s.take w) ∧ (s.take w).tasks = s.tasks ∧ (s.take w).lref = s.lref ∧ (s.take w).dead = s.dead ∧
    (s.take w).cref = s.cref := by
  unfold St.free at hf
  unfold St.take
  cases hw : w.write
  · simp [hw] at hf
    simp only [Bool.false_eq_true, if_false]
    refine ⟨?_, ok_setR o _, by simp, by simp, by simp, by simp⟩
    have := acc_setR a (s.rd + 1) hf.1
    exact acc_conv this rfl rfl (by simp only; omega) (by simp only; omega) (fun _ => rfl)
  · simp [hw] at hf
    simp only [if_true]
    refine ⟨?_, ok_setW o _, by simp, by simp, by simp, by simp⟩
    have := acc_setW a 1 (Or.inr ⟨rfl, hf.2⟩)
    exact acc_conv this rfl rfl (by simp only; omega) (by simp only; omega) (fun _ => rfl)

def Inv (s : St) : Prop := Acc s {} ∧ Ok s

theorem task_c_pos {t : Task} (h : 1 ≤ t.own) : 1 ≤ t.c := by unfold Task.c; omega

/-- A state change that keeps all of `Ok` but counters and queues. -/
theorem acc_lock {s : St} {h : Cr} (a : Acc s h) (n : Nat) : Acc { s with lref := n } { h with l := h.l + n - s.lref } := by
  obtain ⟨a1, a2, a3, a4, a5, a6⟩ := a
  refine ⟨a1, ?_, a3, a4, a5, a6⟩
  simp only [sumT] at a2 ⊢
  omega

theorem acc_cref {s : St} {h : Cr} (a : Acc s h) (n : Nat) : Acc { s with cref := n } { h with c := h.c + n - s.cref } := by
  obtain ⟨a1, a2, a3, a4, a5, a6⟩ := a
  refine ⟨?_, a2, a3, a4, a5, a6⟩
  simp only [sumT] at a1 ⊢
  omega

theorem ok_incC {s : St} (o : Ok s) (hf : s.cFrz = false) : Ok { s with cref := s.cref + 1 } := by
  obtain ⟨o1, o2, o3, o4, o5, o6, o7, o8, o9, o10, o11, o12, o13⟩ := o
  refine ⟨o1, o2, o3, o4, fun h => ?_, fun h => ⟨Nat.succ_pos _, (o6 h).2⟩, o7, o8, o9, o10, o11, o12, o13⟩
  have := (o5 h).2
  rw [hf] at this
  cases this

theorem ok_incL {s : St} (o : Ok s) (hf : s.lFrz = false) : Ok { s with lref := s.lref + 1 } := by
  obtain ⟨o1, o2, o3, o4, o5, o6, o7, o8, o9, o10, o11, o12, o13⟩ := o
  refine ⟨o1, o2, o3, o4, o5, o6, o7, o8, o9, fun h => ⟨(o10 h).1, Nat.succ_pos _⟩, fun h => ?_, o12, fun i t ht => ?_⟩
  · have := (o11 h).1
    rw [hf] at this
    cases this
  · obtain ⟨g1, g2, g3, g4, g5, g6⟩ := o13 i t ht
    refine ⟨g1, g2, g3, g4, g5, fun h => ?_⟩
    have := (g6 h).2.1
    rw [hf] at this
    cases this

/-- Putting `refcnt.lock`. -/
theorem decL_spec {s : St} {h h' : Cr} (a : Acc s h) (o : Ok s) (i : Nat) (t t' : Task) (ht : s.tasks[i]? = some t)
    (hl : 0 < s.lref) (hd : t'.dn = 0) (hd' : t.dn = 0) (hs : t'.pc.stops = false) (hn : 1 ≤ t'.own)
    (ec : h'.c + t'.c = h.c + t.c) (el : h'.l + t'.pc.l = h.l - 1 + t.pc.l) (er : h'.r + t'.pc.r = h.r + t.pc.r)
    (ew : h'.w + t'.pc.w = h.w + t.pc.w) (ek : ∀ k, h'.k k + t'.pc.pend k = h.k k + t.pc.pend k) :
    Acc (s.decL i t') h' ∧ Ok (s.decL i t') := by
  have P : ∀ (j : Nat) (u : Task), s.tasks[j]? = some u → u.dn = 0 := by
    intro j u hu
    by_cases e : u.dn = 0
    · exact e
    · have := ((o.tasks j u hu).2.2.2.2.2 e).2.2
      omega
  have n0 : t'.pc ≠ .stop0 := by intro e; rw [e] at hs; cases hs
  have n2 : t'.pc ≠ .stop2 := by intro e; rw [e] at hs; cases hs
  have n4 : t'.pc ≠ .stop4 := by intro e; rw [e] at hs; cases hs
  have hdead : s.dead = true → False := by
    intro h
    have := (o.dead h).2.1
    omega
  unfold St.decL
  rw [if_neg (by omega)]
  split
  · rename_i g
    have A : Acc { s with lref := 0, lCb := false } { h with l := h.l - 1, c := h.c + 1 } := by
      obtain ⟨a1, a2, a3, a4, a5, a6⟩ := a
      refine ⟨?_, ?_, a3, a4, a5, a6⟩
      · simp only [sumT, g.2, b2n, if_true, Bool.false_eq_true, if_false] at a1 ⊢
        omega
      · simp only [sumT] at a2 ⊢
        omega
    have lf := (o.lcb g.2).1
    have O : Ok { s with lref := 0, lCb := false } := by
      obtain ⟨o1, o2, o3, o4, o5, o6, o7, o8, o9, o10, o11, o12, o13⟩ := o
      refine ⟨o1, o2, o3, o4, o5, o6, o7, o8, o9, ?_, fun h => (hdead h).elim, o12, fun j u hu => ?_⟩
      · intro h; cases h
      · obtain ⟨g1, g2, g3, g4, g5, g6⟩ := o13 j u hu
        exact ⟨g1, g2, g3, g4, g5, fun h => (h (P j u hu)).elim⟩
    refine ⟨acc_setT A i t _ ht h' ?_ ?_ ?_ ?_ ?_, ok_setT O i t _ ht ?_ ?_ ?_ ?_ ?_ ?_⟩
    · simp only [Task.c, hd, hd'] at ec ⊢
      simp at ec ⊢
      omega
    · exact el
    · exact er
    · exact ew
    · exact ek
    · exact fun _ => hn
    · intro h; rw [hs] at h; cases h
    · exact fun h => (n0 h).elim
    · exact fun h => (n2 h).elim
    · exact fun h => (n4 h).elim
    · exact fun _ => ⟨Or.inl hn, lf, rfl⟩
  · rename_i g
    have A := acc_lock a (s.lref - 1)
    have O : Ok { s with lref := s.lref - 1 } := by
      obtain ⟨o1, o2, o3, o4, o5, o6, o7, o8, o9, o10, o11, o12, o13⟩ := o
      refine ⟨o1, o2, o3, o4, o5, o6, o7, o8, o9, ?_, fun h => (hdead h).elim, o12, fun j u hu => ?_⟩
      · intro h
        refine ⟨(o10 h).1, ?_⟩
        have : s.lref ≠ 1 := fun e => g ⟨e, h⟩
        simp only
        omega
      · obtain ⟨g1, g2, g3, g4, g5, g6⟩ := o13 j u hu
        exact ⟨g1, g2, g3, g4, g5, fun h => (h (P j u hu)).elim⟩
    refine ⟨acc_setT A i t _ ht h' ec ?_ er ew ek, ok_setT O i t _ ht ?_ ?_ ?_ ?_ ?_ ?_⟩
    · simp only
      omega
    · exact fun _ => hn
    · intro h; rw [hs] at h; cases h
    · exact fun h => (n0 h).elim
    · exact fun h => (n2 h).elim
    · exact fun h => (n4 h).elim
    · exact fun h => (h hd).elim

/-- Steps that only change the task. -/
theorem set_spec {s : St} {h h' : Cr} (a : Acc s h) (o : Ok s) (i : Nat) (t t' : Task) (ht : s.tasks[i]? = some t)
    (hd : t'.dn = 0) (hs : t'.pc.stops = false) (hn : t'.pc.needs = true → 1 ≤ t'.own)
    (ec : h'.c + t'.c = h.c + t.c) (el : h'.l + t'.pc.l = h.l + t.pc.l) (er : h'.r + t'.pc.r = h.r + t.pc.r)
    (ew : h'.w + t'.pc.w = h.w + t.pc.w) (ek : ∀ k, h'.k k + t'.pc.pend k = h.k k + t.pc.pend k) :
    Acc (s.setT i t') h' ∧ Ok (s.setT i t') := by
  refine ⟨acc_setT a i t t' ht h' ec el er ew ek, ok_setT o i t t' ht hn ?_ ?_ ?_ ?_ ?_⟩
  · intro h; rw [hs] at h; cases h
  · intro h; rw [h] at hs; cases hs
  · intro h; rw [h] at hs; cases hs
  · intro h; rw [h] at hs; cases hs
  · exact fun h => (h hd).elim

theorem decC_keeps (s : St) : s.decC.tasks = s.tasks ∧ s.decC.told = s.told ∧ s.decC.held = s.held ∧
    s.decC.base = s.base ∧ s.decC.lref = s.lref ∧ s.decC.lFrz = s.lFrz ∧ s.decC.stopping = s.stopping ∧
    s.decC.inList = s.inList := by
  unfold St.decC
  split
  · exact ⟨rfl, rfl, rfl, rfl, rfl, rfl, rfl, rfl⟩
  · split <;> exact ⟨rfl, rfl, rfl, rfl, rfl, rfl, rfl, rfl⟩

end Verif.MngtLock
