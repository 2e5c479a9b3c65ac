import Verif.Lemma.MngtLockStep

/-!
C54: the management lock of a cache and the life of the cache object.
-/

namespace Verif.MngtLock

open Verif.AsyncLock (Waiter collect readers writers)

/-! ### What is to hold -/

/-- The references of the cache that somebody still has to put: the one of start, those of users,
of lock calls under way, of locks held, of the end of the lock; and those nobody will put. -/
def owed (s : St) : Nat :=
  s.base + (s.tasks.map (fun t => t.own)).sum +
  (s.tasks.map (fun t => match t.pc with
    | .lk1 _ | .lk2 _ | .nm _ | .t1 _ | .t2 _ | .t3 _ | .unl => 1
    | _ => 0)).sum +
  (s.tasks.map (fun t => if t.dn = 1 ∨ t.dn = 2 then 1 else 0)).sum +
  s.q.length + s.grant.length + s.fail.length + s.held.length + (if s.lCb then 1 else 0)

/-- No call is under way. -/
def Quiet (s : St) : Prop :=
  (∀ t ∈ s.tasks, t.pc = .idle ∧ t.dn = 0) ∧ s.grant = [] ∧ s.fail = []

/-- Some steps. -/
inductive Steps : St → St → Prop
  | refl {s} : Steps s s
  | step {s t u} : Steps s t → Step t u → Steps s u

theorem sum_add (l : List Task) (f g : Task → Nat) :
    (l.map (fun t => f t + g t)).sum = (l.map f).sum + (l.map g).sum := by
  induction l with
  | nil => rfl
  | cons x l ih => simp only [List.map_cons, List.sum_cons, ih]; omega

theorem owed_eq {s : St} (a : Acc s {}) : s.cref = owed s + s.leaked := by
  have h := a.c
  have e : sumT s Task.c = (s.tasks.map (fun t => t.own)).sum + (s.tasks.map (fun t => t.pc.c)).sum +
      (s.tasks.map (fun t => if t.dn = 1 ∨ t.dn = 2 then 1 else 0)).sum := by
    unfold sumT
    rw [← sum_add, ← sum_add]
    rfl
  have e2 : (fun t : Task => match t.pc with
    | .lk1 _ | .lk2 _ | .nm _ | .t1 _ | .t2 _ | .t3 _ | .unl => 1
    | _ => 0) = (fun t => t.pc.c) := by
    funext t
    cases t.pc <;> rfl
  have e3 : ({} : Cr).c = 0 := rfl
  unfold owed
  rw [e2]
  unfold b2n at h
  omega

/-! ### Theorems -/

/-- The memory of a cache is not used after it is freed, and no assertion fails. -/
theorem never_used_freed {s : St} (h : Run s) : s.uaf = false ∧ s.bug = false :=
  ⟨(inv_run h).2.uaf, (inv_run h).2.bug⟩

/-- No lock and no trylock uses the lock after it is destroyed. -/
theorem lock_alive {s : St} (h : Run s) : s.deadUse = false := (inv_run h).2.use

/-- The counter is the number of references still to be put, and those lost by a refused trylock. -/
theorem counted {s : St} (h : Run s) : s.cref = owed s + s.leaked := owed_eq (inv_run h).1

/-- The cache is freed exactly when it is stopped and no reference is left. -/
theorem freed_iff {s : St} (h : Run s) : s.freed = true ↔ (s.cFrz = true ∧ owed s + s.leaked = 0) := by
  obtain ⟨a, o⟩ := inv_run h
  have e := owed_eq a
  constructor
  · intro f
    have := o.freed f
    exact ⟨this.2, by omega⟩
  · rintro ⟨f, z⟩
    rcases (o.frz f).2 with g | g
    · have := (o.cb g).1
      omega
    · exact g

/-- A stopped cache is freed once everybody put their references. Missing: a cache of which a trylock
was refused after it got the lock, see `trylock_leak`. -/
theorem freed_at_end_partial {s : St} (h : Run s) (hs : s.cFrz = true) (hz : owed s = 0) (hl : s.leaked = 0) :
    s.freed = true := (freed_iff h).mpr ⟨hs, by omega⟩

/-- Nobody has a reference or a lock of a freed cache, and it is off the list. -/
theorem freed_unowned {s : St} (h : Run s) (hf : s.freed = true) :
    s.held = [] ∧ s.grant = [] ∧ s.q = [] ∧ s.fail = [] ∧ s.inList = false ∧ ∀ t ∈ s.tasks, t.own = 0 := by
  have := ((freed_iff h).mp hf).2
  unfold owed at this
  refine ⟨List.length_eq_zero_iff.mp (by omega), List.length_eq_zero_iff.mp (by omega),
    List.length_eq_zero_iff.mp (by omega), List.length_eq_zero_iff.mp (by omega), ?_, ?_⟩
  · cases e : s.inList
    · rfl
    · have := (inv_run h).2.list e
      omega
  · intro t ht
    have z : (s.tasks.map (fun t => t.own)).sum = 0 := by omega
    rw [List.sum_eq_zero_iff_forall_eq_nat] at z
    exact z _ (List.mem_map.mpr ⟨t, ht, rfl⟩)

/-- A holder of the write lock is the only holder; told holders and those about to be told. -/
theorem exclusive {s : St} (h : Run s) (w : Waiter) (hw : w ∈ s.held ++ s.grant) (he : w.write = true) :
    s.held ++ s.grant = [w] := by
  obtain ⟨a, -⟩ := inv_run h
  have h1 := a.rd
  have h2 := a.wr
  have h3 := a.ex
  have e1 : ({} : Cr).r = 0 := rfl
  have e2 : ({} : Cr).w = 0 := rfl
  have p : 0 < writers (s.held ++ s.grant) := by
    unfold writers
    exact List.countP_pos_iff.mpr ⟨w, hw, he⟩
  have l := Verif.AsyncLock.length_split (s.held ++ s.grant)
  rw [Verif.AsyncLock.writers_append] at p l
  rw [Verif.AsyncLock.readers_append] at l
  have l1 : (s.held ++ s.grant).length = 1 := by omega
  obtain ⟨x, hx⟩ := List.length_eq_one_iff.mp l1
  rw [hx] at hw ⊢
  simp at hw
  rw [hw]

/-- Each lock call is told of at most once, and only calls that were made. -/
theorem told_once {s : St} (h : Run s) : (s.told.map (fun x => x.1)).Nodup ∧ ∀ x ∈ s.told, x.1 ∈ s.used := by
  obtain ⟨a, o⟩ := inv_run h
  have b : ∀ k, cntT k s.told ≤ s.used.count k := by
    intro k
    have := a.ids k
    have e : ({} : Cr).k k = 0 := rfl
    omega
  have c : ∀ k, (s.told.map (fun x => x.1)).count k = cntT k s.told := by
    intro k
    rw [List.count, List.countP_map]
    rfl
  constructor
  · rw [List.nodup_iff_count]
    intro k
    rw [c]
    have := List.nodup_iff_count.mp o.nodup k
    have := b k
    omega
  · intro x hx
    have : 0 < cntT x.1 s.told := by
      unfold cntT
      exact List.countP_pos_iff.mpr ⟨x, hx, by simp⟩
    have := b x.1
    exact List.count_pos_iff.mp (by omega)

/-- What a step tells: nothing, a refusal that leaves the locks of others, or success, which comes
with the lock and not while the cache is being stopped. -/
theorem outcome {s t : St} (h : Run s) (g : Step s t) :
    (t.told = s.told ∧ ∀ w ∈ t.held, w ∈ s.held) ∨
    (∃ w : Waiter, t.told = s.told ++ [(w.id, false)] ∧ t.held = s.held) ∨
    (∃ w : Waiter, t.told = s.told ++ [(w.id, true)] ∧ t.held = s.held ++ [w] ∧ s.stopping = false) := by
  obtain ⟨a, o⟩ := inv_run h
  have T : s.touch.told = s.told ∧ s.touch.held = s.held ∧ s.touch.stopping = s.stopping := by
    unfold St.touch; split <;> exact ⟨rfl, rfl, rfl⟩
  have U : ∀ (s : St) (w : Waiter), (s.unlockL w).told = s.told ∧ (s.unlockL w).held = s.held := by
    intro s w
    rw [unlockL_eq]
    obtain ⟨k1, k2, k3, k4, k5, k6, k7, k8, k9, k10, k11⟩ := noteU_keeps s
    cases w.write
    · rw [if_neg (by simp)]
      split
      · exact ⟨k8, k7⟩
      · split
        · exact ⟨k8, k7⟩
        · exact ⟨k8, k7⟩
    · rw [if_pos rfl]
      split
      · exact ⟨k8, k7⟩
      · exact ⟨k8, k7⟩
  have D : ∀ s : St, s.decC.told = s.told ∧ s.decC.held = s.held := fun s =>
    ⟨(decC_keeps s).2.1, (decC_keeps s).2.2.1⟩
  have L : ∀ (s : St) (i : Nat) (t : Task), (s.decL i t).told = s.told ∧ (s.decL i t).held = s.held := by
    intro s i t
    unfold St.decL
    split
    · exact ⟨rfl, rfl⟩
    · split <;> exact ⟨rfl, rfl⟩
  have K : ∀ {u : St}, u.told = s.told → u.held = s.held →
      (u.told = s.told ∧ ∀ w ∈ u.held, w ∈ s.held) := by
    intro u h1 h2
    exact ⟨h1, by rw [h2]; exact fun _ h => h⟩
  cases g with
  | task => exact Or.inl (K rfl rfl)
  | get i t ht hd hp h =>
    left
    unfold St.get
    dsimp only
    split
    · exact K T.1 T.2.1
    · exact K T.1 T.2.1
  | name i t ht hd hp h =>
    left
    unfold St.get
    dsimp only
    split
    · exact K T.1 T.2.1
    · exact K T.1 T.2.1
  | put i t ht hd hp h =>
    exact Or.inl (K ((D _).1.trans T.1) ((D _).2.trans T.2.1))
  | call0 i t w tr ht hd hp h hu =>
    unfold St.call0
    dsimp only
    split
    · exact Or.inr (Or.inl ⟨w, by simp only [St.tell]; rw [T.1], T.2.1⟩)
    · exact Or.inl (K T.1 T.2.1)
  | call1 i t w tr ht hd hp =>
    unfold St.call1
    dsimp only
    split
    · exact Or.inr (Or.inl ⟨w, by simp only [St.tell, St.setT]; rw [(D _).1, T.1], (D _).2.trans T.2.1⟩)
    · exact Or.inl (K T.1 T.2.1)
  | lock2 i t w ok ht hd hp =>
    left
    unfold St.lock2
    dsimp only
    have N : s.touch.useL.told = s.told ∧ s.touch.useL.held = s.held := by
      unfold St.useL; split <;> exact ⟨T.1, T.2.1⟩
    have N2 : (s.touch.useL.take w).told = s.told ∧ (s.touch.useL.take w).held = s.held := by
      unfold St.take; split <;> exact N
    split
    · split
      · exact K N2.1 N2.2
      · exact K N.1 N.2
    · exact K ((L _ _ _).1.trans T.1) ((L _ _ _).2.trans T.2.1)
  | nm i t w ht hd hp =>
    exact Or.inr (Or.inl ⟨w, by simp only [St.lockNm, St.tell, St.setT]; rw [(D _).1, T.1], (D _).2.trans T.2.1⟩)
  | lock3 i t ht hd hp =>
    exact Or.inl (K ((L _ _ _).1.trans T.1) ((L _ _ _).2.trans T.2.1))
  | try2 i t w ht hd hp =>
    unfold St.try2
    dsimp only
    have N : s.touch.useL.told = s.told ∧ s.touch.useL.held = s.held := by
      unfold St.useL; split <;> exact ⟨T.1, T.2.1⟩
    have N2 : (s.touch.useL.take w).told = s.told ∧ (s.touch.useL.take w).held = s.held := by
      unfold St.take; split <;> exact N
    split
    · exact Or.inl (K N2.1 N2.2)
    · exact Or.inr (Or.inl ⟨w, by simp only [St.tell, St.setT]; rw [(D _).1, N.1], (D _).2.trans N.2⟩)
  | try3 i t w ht hd hp =>
    unfold St.try3
    dsimp only
    split
    · exact Or.inr (Or.inl ⟨w, by simp only [St.tell, St.setT]; rw [(U _ _).1, T.1], (U _ _).2.trans T.2.1⟩)
    · rename_i n
      refine Or.inr (Or.inr ⟨w, by simp only [St.tell, St.setT]; rw [T.1], by
        simp only [St.tell, St.setT]; rw [T.2.1], ?_⟩)
      rw [T.2.2] at n
      simpa using n
  | done w hw =>
    unfold St.done
    dsimp only
    split
    · refine Or.inr (Or.inl ⟨w, by simp only [St.tell]; rw [(D _).1, (U _ _).1]; simp only; rw [T.1], ?_⟩)
      exact (D _).2.trans ((U _ _).2.trans T.2.1)
    · rename_i n
      refine Or.inr (Or.inr ⟨w, by simp only [St.tell]; rw [T.1], by
        simp only [St.tell]; rw [T.2.1], ?_⟩)
      rw [T.2.2] at n
      simpa using n
  | failed w hw =>
    refine Or.inr (Or.inl ⟨w, by simp only [St.failed, St.tell]; rw [(D _).1]; simp only; rw [T.1], ?_⟩)
    exact (D _).2.trans T.2.1
  | unlock i t w ht hd hp hw =>
    left
    unfold St.unlock
    refine ⟨((U _ _).1).trans T.1, ?_⟩
    intro x hx
    have hx : x ∈ (St.unlockL { s.touch with held := s.touch.held.erase w } w).held := hx
    rw [(U _ _).2] at hx
    have := List.mem_of_mem_erase hx
    rw [T.2.1] at this
    exact this
  | unl i t ht hd hp => exact Or.inl (K ((D _).1.trans T.1) ((D _).2.trans T.2.1))
  | stop i t w ht hd hp hw _ hs => exact Or.inl (K T.1 T.2.1)
  | stopErr i t ht hd hp => exact Or.inl (K T.1 T.2.1)
  | remove1 i t ht hd hp =>
    left
    unfold St.remove1
    dsimp only
    split
    · exact K T.1 T.2.1
    · split
      · exact K T.1 T.2.1
      · exact K T.1 T.2.1
  | remove2 i t ht hd hp =>
    left
    unfold St.remove2
    dsimp only
    split
    · exact K T.1 T.2.1
    · split
      · exact K T.1 T.2.1
      · exact K T.1 T.2.1
  | off i t ht hd hp => exact Or.inl (K T.1 T.2.1)
  | stop4 i t ht hd hp => exact Or.inl (K ((D _).1.trans T.1) ((D _).2.trans T.2.1))
  | dn1 i t ht hd => exact Or.inl (K T.1 T.2.1)
  | dn2 i t ht hd => exact Or.inl (K ((D _).1.trans T.1) ((D _).2.trans T.2.1))
  | dn3 i t ht hd => exact Or.inl (K T.1 T.2.1)

/-- Nobody waits for a free lock. -/
def Wake (s : St) : Prop := s.rd = 0 → s.wr = 0 → s.q = []

theorem wake_release {s : St} (h2 : s.wr = 0) : Wake s.release := by
  obtain ⟨-, -, c3⟩ := Verif.AsyncLock.collect_spec s.q s.rd s.wr
  obtain ⟨-, -, c6, -⟩ := c3 h2
  intro g1 g2
  exact c6 g2 g1

theorem wake_unlockL {s : St} (w : Waiter) (h : Wake s) : Wake (s.unlockL w) := by
  rw [unlockL_eq]
  have hn : Wake s.noteU := by
    unfold St.noteU; split <;> exact h
  cases w.write
  · rw [if_neg (by simp)]
    split
    · exact hn
    · rename_i g
      split
      · rename_i g2
        intro g3
        simp only at g3
        omega
      · refine wake_release ?_
        show s.noteU.wr = 0
        omega
  · rw [if_pos rfl]
    split
    · exact hn
    · exact wake_release rfl

theorem wake_step {s t : St} (h : Wake s) (g : Step s t) : Wake t := by
  have K : ∀ {u : St}, u.rd = s.rd → u.wr = s.wr → u.q = s.q → Wake u := by
    intro u h1 h2 h3 g1 g2
    rw [h3]
    exact h (by omega) (by omega)
  have T : s.touch.rd = s.rd ∧ s.touch.wr = s.wr ∧ s.touch.q = s.q := by
    unfold St.touch; split <;> exact ⟨rfl, rfl, rfl⟩
  have TW : Wake s.touch := K T.1 T.2.1 T.2.2
  have TU : Wake s.touch.useL := by unfold St.useL; split <;> exact TW
  have D : ∀ {s : St}, Wake s → Wake s.decC := by
    intro s h
    unfold St.decC
    split
    · exact h
    · split <;> exact h
  have L : ∀ {s : St} (i : Nat) (t : Task), Wake s → Wake (s.decL i t) := by
    intro s i t h
    unfold St.decL
    split
    · exact h
    · split <;> exact h
  have TK : ∀ {s : St} (w : Waiter), Wake (s.take w) := by
    intro s w g1 g2
    unfold St.take at g1 g2
    split at g1
    · rename_i e
      rw [if_pos e] at g2
      cases g2
    · simp at g1
  cases g with
  | task => exact h
  | get i t ht hd hp h =>
    unfold St.get
    dsimp only
    split <;> exact TW
  | name i t ht hd hp h =>
    unfold St.get
    dsimp only
    split <;> exact TW
  | put i t ht hd hp h => exact D TW
  | call0 i t w tr ht hd hp h hu =>
    unfold St.call0
    dsimp only
    split <;> exact TW
  | call1 i t w tr ht hd hp =>
    unfold St.call1
    dsimp only
    split
    · exact D TW
    · exact TW
  | lock2 i t w ok ht hd hp =>
    unfold St.lock2
    dsimp only
    split
    · split
      · exact TK w
      · rename_i n
        unfold St.free at n
        intro g1 g2
        exfalso
        have g1 : s.touch.useL.rd = 0 := g1
        have g2 : s.touch.useL.wr = 0 := g2
        have := TU g1 g2
        simp [g1, g2, this] at n
    · exact L i _ TW
  | nm i t w ht hd hp => exact D TW
  | lock3 i t ht hd hp => exact L i _ TW
  | try2 i t w ht hd hp =>
    unfold St.try2
    dsimp only
    split
    · exact TK w
    · exact D TU
  | try3 i t w ht hd hp =>
    unfold St.try3
    dsimp only
    split
    · exact wake_unlockL w TW
    · exact TW
  | done w hw =>
    unfold St.done
    dsimp only
    split
    · exact D (wake_unlockL w TW)
    · exact TW
  | failed w hw => exact D (s := { s.touch with fail := s.touch.fail.erase w }) TW
  | unlock i t w ht hd hp hw => exact wake_unlockL (s := { s.touch with held := s.touch.held.erase w }) w TW
  | unl i t ht hd hp => exact D TW
  | stop i t w ht hd hp hw _ hs => exact TW
  | stopErr i t ht hd hp => exact TW
  | remove1 i t ht hd hp =>
    unfold St.remove1
    dsimp only
    split
    · exact TW
    · split <;> exact TW
  | remove2 i t ht hd hp =>
    unfold St.remove2
    dsimp only
    split
    · exact TW
    · split <;> exact TW
  | off i t ht hd hp => exact TW
  | stop4 i t ht hd hp => exact D TW
  | dn1 i t ht hd => exact fun _ _ => rfl
  | dn2 i t ht hd => exact D TW
  | dn3 i t ht hd => exact TW

theorem wake_run {s : St} (h : Run s) : Wake s := by
  induction h with
  | init => exact fun _ _ => rfl
  | step _ g ih => exact wake_step ih g

theorem sum_zero (l : List Task) (f : Task → Nat) (h : ∀ t ∈ l, f t = 0) : (l.map f).sum = 0 := by
  rw [List.sum_eq_zero_iff_forall_eq_nat]
  intro x hx
  obtain ⟨t, ht, rfl⟩ := List.mem_map.mp hx
  exact h t ht

/-- When no call is under way and no lock is held, every lock call was told of, exactly once. -/
theorem all_told {s : St} (h : Run s) (hq : Quiet s) (hh : s.held = []) (k : Nat) (hk : k ∈ s.used) :
    (s.told.map (fun x => x.1)).count k = 1 := by
  obtain ⟨a, o⟩ := inv_run h
  obtain ⟨q1, q2, q3⟩ := hq
  have z1 : sumT s (fun t => t.pc.pend k) = 0 := sum_zero _ _ (fun t ht => by rw [(q1 t ht).1]; rfl)
  have z2 : sumT s (fun t => t.pc.r) = 0 := sum_zero _ _ (fun t ht => by rw [(q1 t ht).1]; rfl)
  have z3 : sumT s (fun t => t.pc.w) = 0 := sum_zero _ _ (fun t ht => by rw [(q1 t ht).1]; rfl)
  have e1 : ({} : Cr).r = 0 := rfl
  have e2 : ({} : Cr).w = 0 := rfl
  have e3 : ({} : Cr).k k = 0 := rfl
  have h1 := a.rd
  have h2 := a.wr
  rw [q2, hh, z2] at h1
  rw [q2, hh, z3] at h2
  have r0 : readers [] = 0 := rfl
  have w0 : writers [] = 0 := rfl
  have hq := wake_run h (by omega) (by omega)
  have g := a.ids k
  rw [z1, hq, q2, q3, e3] at g
  have c0 : cnt k [] = 0 := rfl
  have hc : (s.told.map (fun x => x.1)).count k = cntT k s.told := by
    rw [List.count, List.countP_map]
    rfl
  rw [hc]
  have := List.nodup_iff_count.mp o.nodup k
  have := List.count_pos_iff.mpr hk
  omega

theorem leaked_step {s t : St} (g : Step s t) : s.leaked ≤ t.leaked := by
  have T : s.touch.leaked = s.leaked := by unfold St.touch; split <;> rfl
  have TU : s.touch.useL.leaked = s.leaked := by unfold St.useL; split <;> exact T
  have U : ∀ (s : St) (w : Waiter), (s.unlockL w).leaked = s.leaked := by
    intro s w
    rw [unlockL_eq]
    have k := (noteU_keeps s).2.2.2.2.2.1
    cases w.write
    · rw [if_neg (by simp)]
      split
      · exact k
      · split <;> exact k
    · rw [if_pos rfl]
      split <;> exact k
  have D : ∀ s : St, s.decC.leaked = s.leaked := by
    intro s
    unfold St.decC
    split
    · rfl
    · split <;> rfl
  have L : ∀ (s : St) (i : Nat) (t : Task), (s.decL i t).leaked = s.leaked := by
    intro s i t
    unfold St.decL
    split
    · rfl
    · split <;> rfl
  have TK : ∀ (s : St) (w : Waiter), (s.take w).leaked = s.leaked := by
    intro s w
    unfold St.take
    split <;> rfl
  cases g with
  | task => exact Nat.le_refl _
  | get i t ht hd hp h =>
    unfold St.get
    dsimp only
    split <;> exact Nat.le_of_eq T.symm
  | name i t ht hd hp h =>
    unfold St.get
    dsimp only
    split <;> exact Nat.le_of_eq T.symm
  | put i t ht hd hp h => exact Nat.le_of_eq ((D _).trans T).symm
  | call0 i t w tr ht hd hp h hu =>
    unfold St.call0
    dsimp only
    split <;> exact Nat.le_of_eq T.symm
  | call1 i t w tr ht hd hp =>
    unfold St.call1
    dsimp only
    split
    · exact Nat.le_of_eq ((D _).trans T).symm
    · exact Nat.le_of_eq T.symm
  | lock2 i t w ok ht hd hp =>
    unfold St.lock2
    dsimp only
    split
    · split
      · exact Nat.le_of_eq ((TK _ _).trans TU).symm
      · exact Nat.le_of_eq TU.symm
    · exact Nat.le_of_eq ((L _ _ _).trans T).symm
  | nm i t w ht hd hp => exact Nat.le_of_eq ((D _).trans T).symm
  | lock3 i t ht hd hp => exact Nat.le_of_eq ((L _ _ _).trans T).symm
  | try2 i t w ht hd hp =>
    unfold St.try2
    dsimp only
    split
    · exact Nat.le_of_eq ((TK _ _).trans TU).symm
    · exact Nat.le_of_eq ((D _).trans TU).symm
  | try3 i t w ht hd hp =>
    unfold St.try3
    dsimp only
    split
    · show s.leaked ≤ (s.touch.unlockL w).leaked + 1
      rw [U, T]
      omega
    · exact Nat.le_of_eq T.symm
  | done w hw =>
    unfold St.done
    dsimp only
    split
    · exact Nat.le_of_eq ((D _).trans ((U { s.touch with grant := s.touch.grant.erase w } w).trans T)).symm
    · exact Nat.le_of_eq T.symm
  | failed w hw => exact Nat.le_of_eq ((D { s.touch with fail := s.touch.fail.erase w }).trans T).symm
  | unlock i t w ht hd hp hw =>
    exact Nat.le_of_eq ((U { s.touch with held := s.touch.held.erase w } w).trans T).symm
  | unl i t ht hd hp => exact Nat.le_of_eq ((D _).trans T).symm
  | stop i t w ht hd hp hw _ hs => exact Nat.le_of_eq T.symm
  | stopErr i t ht hd hp => exact Nat.le_of_eq T.symm
  | remove1 i t ht hd hp =>
    unfold St.remove1
    dsimp only
    split
    · exact Nat.le_of_eq T.symm
    · split <;> exact Nat.le_of_eq T.symm
  | remove2 i t ht hd hp =>
    unfold St.remove2
    dsimp only
    split
    · exact Nat.le_of_eq T.symm
    · split <;> exact Nat.le_of_eq T.symm
  | off i t ht hd hp => exact Nat.le_of_eq T.symm
  | stop4 i t ht hd hp => exact Nat.le_of_eq ((D _).trans T).symm
  | dn1 i t ht hd => exact Nat.le_of_eq T.symm
  | dn2 i t ht hd => exact Nat.le_of_eq ((D _).trans T).symm
  | dn3 i t ht hd => exact Nat.le_of_eq T.symm

/-- After one refused trylock that had got the lock, the cache is never freed. -/
theorem leak_forever {s t : St} (h : Run s) (hl : 0 < s.leaked) (g : Steps s t) : t.freed = false := by
  have G : Run t ∧ s.leaked ≤ t.leaked := by
    induction g with
    | refl => exact ⟨h, Nat.le_refl _⟩
    | step _ k ih => exact ⟨.step ih.1 k, Nat.le_trans ih.2 (leaked_step k)⟩
  cases e : t.freed
  · rfl
  · have := ((freed_iff G.1).mp e).2
    omega

/-- Stopping, not yet frozen. -/
def Pc.early : Pc → Bool
  | .stop0 | .stop2 => true
  | _ => false

/-- Why the cache is in the stopping state. -/
def Why (s : St) : Prop := s.stopping = false ∨ s.cFrz = true ∨ 0 < sumT s (fun t => b2n t.pc.early)

theorem why_set {s u : St} (h : Why s) {i : Nat} {t t' : Task} (ht : s.tasks[i]? = some t)
    (hn : t.pc.early = false ∨ t'.pc.early = true) (h1 : u.stopping = s.stopping) (h2 : s.cFrz = true → u.cFrz = true)
    (h3 : u.tasks = s.tasks.set i t') : Why u := by
  rcases h with h | h | h
  · exact Or.inl (by rw [h1]; exact h)
  · exact Or.inr (Or.inl (h2 h))
  · refine Or.inr (Or.inr ?_)
    have := sum_set s.tasks (fun t => b2n t.pc.early) i t t' ht
    unfold sumT at h ⊢
    rw [h3]
    rcases hn with hn | hn
    · simp only [hn, b2n, Bool.false_eq_true, if_false] at this
      simp only [b2n] at h ⊢
      omega
    · have b : b2n t.pc.early ≤ 1 := by unfold b2n; split <;> omega
      simp only [hn, b2n, if_true] at this b
      simp only [b2n] at h ⊢
      omega

theorem why_decC : ∀ s : St, s.decC.stopping = s.stopping ∧ s.decC.cFrz = s.cFrz ∧ s.decC.tasks = s.tasks := by
  intro s
  unfold St.decC
  split
  · exact ⟨rfl, rfl, rfl⟩
  · split <;> exact ⟨rfl, rfl, rfl⟩

theorem why_take : ∀ (s : St) (w : Waiter), (s.take w).stopping = s.stopping ∧ (s.take w).cFrz = s.cFrz ∧
    (s.take w).tasks = s.tasks := by
  intro s w; unfold St.take; split <;> exact ⟨rfl, rfl, rfl⟩

theorem why_unlockL : ∀ (s : St) (w : Waiter), (s.unlockL w).stopping = s.stopping ∧ (s.unlockL w).cFrz = s.cFrz ∧
    (s.unlockL w).tasks = s.tasks := by
  intro s w
  rw [unlockL_eq]
  have k : s.noteU.stopping = s.stopping ∧ s.noteU.cFrz = s.cFrz ∧ s.noteU.tasks = s.tasks := by
    unfold St.noteU; split <;> exact ⟨rfl, rfl, rfl⟩
  cases w.write
  · rw [if_neg (by simp)]
    split
    · exact k
    · split <;> exact k
  · rw [if_pos rfl]
    split <;> exact k

theorem wd {s : St} (h : Why s) : Why s.decC := by
  unfold Why sumT; rw [(why_decC s).1, (why_decC s).2.1, (why_decC s).2.2]; exact h

theorem wu {s : St} (w : Waiter) (h : Why s) : Why (s.unlockL w) := by
  unfold Why sumT; rw [(why_unlockL s w).1, (why_unlockL s w).2.1, (why_unlockL s w).2.2]; exact h

set_option maxHeartbeats 400000 in
theorem why_step {s t : St} (h : Why s) (g : Step s t) : Why t := by
  have T : s.touch.stopping = s.stopping ∧ s.touch.cFrz = s.cFrz ∧ s.touch.tasks = s.tasks := by
    unfold St.touch; split <;> exact ⟨rfl, rfl, rfl⟩
  have T2 : s.cFrz = true → s.touch.cFrz = true := by rw [T.2.1]; exact id
  have TW : Why s.touch := by unfold Why sumT; rw [T.1, T.2.1, T.2.2]; exact h
  have D := why_decC
  have N : s.touch.useL.stopping = s.stopping ∧ s.touch.useL.cFrz = s.cFrz ∧ s.touch.useL.tasks = s.tasks := by
    unfold St.useL; split <;> exact T
  have TK := why_take
  have U := why_unlockL
  have L : ∀ (i : Nat) (t t' : Task), s.tasks[i]? = some t → t.pc.early = false → t'.pc.early = false →
      Why (s.touch.decL i t') := by
    intro i t t' ht h1 h2
    unfold St.decL
    split
    · exact TW
    · split
      · exact why_set h ht (Or.inl h1) T.1 T2 (by simp only [St.setT]; rw [T.2.2])
      · exact why_set h ht (Or.inl h1) T.1 T2 (by simp only [St.setT]; rw [T.2.2])
  cases g with
  | task =>
    rcases h with h | h | h
    · exact Or.inl h
    · exact Or.inr (Or.inl h)
    · refine Or.inr (Or.inr ?_)
      unfold sumT at h ⊢
      simp only [List.map_append, List.sum_append]
      omega
  | get i t ht hd hp h0 =>
    unfold St.get
    dsimp only
    split
    · exact TW
    · exact why_set h ht (Or.inl (by rw [hp]; rfl)) T.1 T2 (by simp only [St.setT]; rw [T.2.2])
  | name i t ht hd hp h0 =>
    unfold St.get
    dsimp only
    split
    · exact TW
    · exact why_set h ht (Or.inl (by rw [hp]; rfl)) T.1 T2 (by simp only [St.setT]; rw [T.2.2])
  | put i t ht hd hp h0 =>
    exact why_set h ht (Or.inl (by rw [hp]; rfl)) ((D s.touch).1.trans T.1)
      (fun e => ((D s.touch).2.1.trans T.2.1).trans e) (by simp only [St.setT]; rw [(D s.touch).2.2, T.2.2])
  | call0 i t w tr ht hd hp h0 hu =>
    unfold St.call0
    dsimp only
    split
    · exact TW
    · exact why_set h ht (Or.inl (by rw [hp]; rfl)) T.1 T2 (by simp only [St.setT]; rw [T.2.2])
  | call1 i t w tr ht hd hp =>
    have e : t.pc.early = false := by rw [hp]; cases tr <;> rfl
    unfold St.call1
    dsimp only
    split
    · exact why_set h ht (Or.inl e) ((D s.touch).1.trans T.1)
        (fun e => ((D s.touch).2.1.trans T.2.1).trans e) (by simp only [St.setT, St.tell]; rw [(D s.touch).2.2, T.2.2])
    · exact why_set h ht (Or.inl e) T.1 T2 (by simp only [St.setT]; rw [T.2.2])
  | lock2 i t w ok ht hd hp =>
    have e : t.pc.early = false := by rw [hp]; rfl
    unfold St.lock2
    dsimp only
    split
    · split
      · exact why_set h ht (Or.inl e) ((TK s.touch.useL w).1.trans N.1) (fun e => ((TK s.touch.useL w).2.1.trans N.2.1).trans e)
          (by simp only [St.setT]; rw [(TK s.touch.useL w).2.2, N.2.2])
      · exact why_set h ht (Or.inl e) N.1 (fun e => N.2.1.trans e) (by simp only [St.setT]; rw [N.2.2])
    · exact L i t _ ht e rfl
  | nm i t w ht hd hp =>
    exact why_set h ht (Or.inl (by rw [hp]; rfl)) ((D s.touch).1.trans T.1)
        (fun e => ((D s.touch).2.1.trans T.2.1).trans e) (by simp only [St.lockNm, St.setT, St.tell]; rw [(D s.touch).2.2, T.2.2])
  | lock3 i t ht hd hp => exact L i t _ ht (by rcases hp with hp | hp <;> rw [hp] <;> rfl) rfl
  | try2 i t w ht hd hp =>
    have e : t.pc.early = false := by rw [hp]; rfl
    unfold St.try2
    dsimp only
    split
    · exact why_set h ht (Or.inl e) ((TK s.touch.useL w).1.trans N.1) (fun e => ((TK s.touch.useL w).2.1.trans N.2.1).trans e)
          (by simp only [St.setT]; rw [(TK s.touch.useL w).2.2, N.2.2])
    · exact why_set h ht (Or.inl e) ((D s.touch.useL).1.trans N.1)
        (fun e => ((D s.touch.useL).2.1.trans N.2.1).trans e) (by simp only [St.setT, St.tell]; rw [(D s.touch.useL).2.2, N.2.2])
  | try3 i t w ht hd hp =>
    have e : t.pc.early = false := by rw [hp]; rfl
    unfold St.try3
    dsimp only
    split
    · exact why_set h ht (Or.inl e) ((U s.touch w).1.trans T.1) (fun e => ((U s.touch w).2.1.trans T.2.1).trans e)
          (by simp only [St.setT, St.tell]; rw [(U s.touch w).2.2, T.2.2])
    · exact why_set h ht (Or.inl e) T.1 T2 (by simp only [St.setT, St.tell]; rw [T.2.2])
  | done w hw =>
    unfold St.done
    dsimp only
    split
    · exact wd (wu (s := { s.touch with grant := s.touch.grant.erase w }) w TW)
    · exact TW
  | failed w hw =>
    exact wd (s := { s.touch with fail := s.touch.fail.erase w }) TW
  | unlock i t w ht hd hp hw =>
    have V := U { s.touch with held := s.touch.held.erase w } w
    refine why_set h ht (t' := { t with pc := .unl }) (Or.inl (by rw [hp]; rfl)) (V.1.trans T.1)
      (fun e => (V.2.1.trans T.2.1).trans e) ?_
    simp only [St.unlock, St.setT]
    rw [V.2.2]
    simp only
    rw [T.2.2]
  | unl i t ht hd hp =>
    exact why_set h ht (Or.inl (by rw [hp]; rfl)) ((D s.touch).1.trans T.1)
      (fun e => ((D s.touch).2.1.trans T.2.1).trans e) (by simp only [St.setT]; rw [(D s.touch).2.2, T.2.2])
  | stop i t w ht hd hp hw _ hs =>
    refine Or.inr (Or.inr ?_)
    have := sum_set s.tasks (fun t => b2n t.pc.early) i t { t with pc := .stop0 } ht
    simp only [sumT, St.setT]
    rw [T.2.2]
    simp only [hp, Pc.early, b2n, Bool.false_eq_true, if_false, if_true] at this ⊢
    omega
  | stopErr i t ht hd hp => exact Or.inl rfl
  | remove1 i t ht hd hp =>
    unfold St.remove1
    dsimp only
    split
    · exact TW
    · split
      · exact why_set h ht (t' := { t with pc := .stop2, dn := 1 }) (Or.inr rfl) T.1 T2
          (by simp only [St.setT]; rw [T.2.2])
      · exact why_set h ht (t' := { t with pc := .stop2 }) (Or.inr rfl) T.1 T2 (by simp only [St.setT]; rw [T.2.2])
  | remove2 i t ht hd hp =>
    unfold St.remove2
    dsimp only
    split
    · exact TW
    · split <;> exact Or.inr (Or.inl rfl)
  | off i t ht hd hp =>
    exact why_set h ht (t' := { t with pc := .stop4 }) (Or.inl (by rw [hp]; rfl)) T.1 T2 (by simp only [St.setT]; rw [T.2.2])
  | stop4 i t ht hd hp =>
    exact why_set h ht (t' := { t with pc := .idle }) (Or.inl (by rw [hp]; rfl)) ((D s.touch).1.trans T.1)
      (fun e => ((D s.touch).2.1.trans T.2.1).trans e) (by simp only [St.setT]; rw [(D s.touch).2.2, T.2.2])
  | dn1 i t ht hd =>
    exact why_set h ht (t' := { t with dn := 2 }) (by cases e : t.pc.early; exact Or.inl rfl; exact Or.inr rfl) T.1 T2
      (by simp only [St.setT]; rw [T.2.2])
  | dn2 i t ht hd =>
    exact why_set h ht (t' := { t with dn := 3 }) (by cases e : t.pc.early; exact Or.inl rfl; exact Or.inr rfl) ((D s.touch).1.trans T.1)
      (fun e => ((D s.touch).2.1.trans T.2.1).trans e) (by simp only [St.setT]; rw [(D s.touch).2.2, T.2.2])
  | dn3 i t ht hd =>
    exact why_set h ht (t' := { t with dn := 0 }) (by cases e : t.pc.early; exact Or.inl rfl; exact Or.inr rfl) T.1 T2
      (by simp only [St.setT]; rw [T.2.2])

/-- A cache is in the stopping state only while a stop is at work, or for good: a stop that failed
leaves it usable. -/
theorem stopping_why {s : St} (h : Run s) (hs : s.stopping = true) :
    s.cFrz = true ∨ ∃ t ∈ s.tasks, t.pc = .stop0 ∨ t.pc = .stop2 := by
  have w : Why s := by
    induction h with
    | init => exact Or.inl rfl
    | step _ g ih =>
      refine why_step ?_ g
      rename_i s' _ _
      cases e : s'.stopping
      · exact Or.inl e
      · exact ih e
  rcases w with w | w | w
  · rw [w] at hs; cases hs
  · exact Or.inl w
  · right
    refine Classical.byContradiction fun n => ?_
    have : sumT s (fun t => b2n t.pc.early) = 0 := by
      refine sum_zero _ _ (fun t ht => ?_)
      cases e : t.pc <;> try rfl
      · exact (n ⟨t, ht, Or.inl e⟩).elim
      · exact (n ⟨t, ht, Or.inr e⟩).elim
    omega

/-- A cache that is not being stopped can be found, locked and referenced. -/
theorem usable {s : St} (h : Run s) (hs : s.stopping = false) :
    s.inList = true ∧ s.cFrz = false ∧ s.lFrz = false ∧ s.dead = false ∧ s.freed = false := by
  obtain ⟨-, o⟩ := inv_run h
  obtain ⟨h1, h2, h3⟩ := o.live hs
  have hc : s.cFrz = false := by
    cases e : s.cFrz
    · rfl
    · have := (o.frz e).1; rw [h2] at this; cases this
  refine ⟨h3, hc, h2, ?_, ?_⟩
  · cases e : s.dead
    · rfl
    · have := (o.dead e).1; rw [h2] at this; cases this
  · cases e : s.freed
    · rfl
    · have := (o.freed e).2; rw [hc] at this; cases this

/-! ### Concrete executions -/

/-- Steps by name, for executions written out. -/
inductive Act
  | task | get (i : Nat) | name (i : Nat) | put (i : Nat) | call0 (i : Nat) (w : Waiter) (tr : Bool)
  | call1 (i : Nat) | lock2 (i : Nat) (ok : Bool) | nm (i : Nat) | lock3 (i : Nat) | try2 (i : Nat)
  | try3 (i : Nat) | done (w : Waiter) | failed (w : Waiter) | unlock (i : Nat) (w : Waiter) | unl (i : Nat)
  | stop (i : Nat) (w : Waiter) | stopErr (i : Nat) | remove1 (i : Nat) | remove2 (i : Nat) | off (i : Nat)
  | stop4 (i : Nat) | dn (i : Nat)

/-- The state after a step. -/
def act (s : St) : Act → Option St
  | .task => some { s with tasks := s.tasks ++ [⟨0, .idle, 0⟩] }
  | .get i => s.tasks[i]?.bind fun t =>
      if t.dn = 0 ∧ t.pc = .idle ∧ 1 ≤ t.own then some (s.get i t) else none
  | .name i => s.tasks[i]?.bind fun t =>
      if t.dn = 0 ∧ t.pc = .idle ∧ s.inList = true then some (s.get i t) else none
  | .put i => s.tasks[i]?.bind fun t =>
      if t.dn = 0 ∧ t.pc = .idle ∧ 1 ≤ t.own then some (s.touch.decC.setT i { t with own := t.own - 1 }) else none
  | .call0 i w tr => s.tasks[i]?.bind fun t =>
      if t.dn = 0 ∧ t.pc = .idle ∧ 1 ≤ t.own ∧ w.id ∉ s.used then some (s.call0 i t w tr) else none
  | .call1 i => s.tasks[i]?.bind fun t =>
      match t.pc with
      | .lk1 w => if t.dn = 0 then some (s.call1 i t w false) else none
      | .t1 w => if t.dn = 0 then some (s.call1 i t w true) else none
      | _ => none
  | .lock2 i ok => s.tasks[i]?.bind fun t =>
      match t.pc with
      | .lk2 w => if t.dn = 0 then some (s.lock2 i t w ok) else none
      | _ => none
  | .nm i => s.tasks[i]?.bind fun t =>
      match t.pc with
      | .nm w => if t.dn = 0 then some (s.lockNm i t w) else none
      | _ => none
  | .lock3 i => s.tasks[i]?.bind fun t =>
      if t.dn = 0 ∧ (t.pc = .lk3 ∨ t.pc = .tEnd) then some (s.touch.decL i { t with pc := .idle }) else none
  | .try2 i => s.tasks[i]?.bind fun t =>
      match t.pc with
      | .t2 w => if t.dn = 0 then some (s.try2 i t w) else none
      | _ => none
  | .try3 i => s.tasks[i]?.bind fun t =>
      match t.pc with
      | .t3 w => if t.dn = 0 then some (s.try3 i t w) else none
      | _ => none
  | .done w => if w ∈ s.grant then some (s.done w) else none
  | .failed w => if w ∈ s.fail then some (s.failed w) else none
  | .unlock i w => s.tasks[i]?.bind fun t =>
      if t.dn = 0 ∧ t.pc = .idle ∧ w ∈ s.held then some (s.unlock i t w) else none
  | .unl i => s.tasks[i]?.bind fun t =>
      if t.dn = 0 ∧ t.pc = .unl then some (s.touch.decC.setT i { t with pc := .idle }) else none
  | .stop i w => s.tasks[i]?.bind fun t =>
      if t.dn = 0 ∧ t.pc = .idle ∧ w ∈ s.held ∧ w.write = true ∧ s.stopping = false then
        some ({ s.touch with stopping := true }.setT i { t with pc := .stop0 }) else none
  | .stopErr i => s.tasks[i]?.bind fun t =>
      if t.dn = 0 ∧ t.pc = .stop0 then some ({ s.touch with stopping := false }.setT i { t with pc := .idle }) else none
  | .remove1 i => s.tasks[i]?.bind fun t =>
      if t.dn = 0 ∧ t.pc = .stop0 then some (s.remove1 i t) else none
  | .remove2 i => s.tasks[i]?.bind fun t =>
      if t.dn = 0 ∧ t.pc = .stop2 then some (s.remove2 i t) else none
  | .off i => s.tasks[i]?.bind fun t =>
      if t.dn = 0 ∧ t.pc = .stop3 then some ({ s.touch with inList := false }.setT i { t with pc := .stop4 }) else none
  | .stop4 i => s.tasks[i]?.bind fun t =>
      if t.dn = 0 ∧ t.pc = .stop4 then
        some ({ s.touch.decC with base := s.base - 1 }.setT i { t with pc := .idle }) else none
  | .dn i => s.tasks[i]?.bind fun t =>
      if t.dn = 1 then
        some ({ s.touch with fail := s.fail ++ s.q, q := [], dead := true }.setT i { t with dn := 2 })
      else if t.dn = 2 then some (s.touch.decC.setT i { t with dn := 3 })
      else if t.dn = 3 then some (s.touch.setT i { t with dn := 0 })
      else none

theorem act_step {s t : St} {a : Act} (h : act s a = some t) : Step s t := by
  cases a <;> simp only [act, Option.bind_eq_some_iff] at h
  case task => cases h; exact .task
  case get i =>
    obtain ⟨u, hu, h⟩ := h; split at h
    · rename_i g; cases h; exact .get i u hu g.1 g.2.1 g.2.2
    · cases h
  case name i =>
    obtain ⟨u, hu, h⟩ := h; split at h
    · rename_i g; cases h; exact .name i u hu g.1 g.2.1 g.2.2
    · cases h
  case put i =>
    obtain ⟨u, hu, h⟩ := h; split at h
    · rename_i g; cases h; exact .put i u hu g.1 g.2.1 g.2.2
    · cases h
  case call0 i w tr =>
    obtain ⟨u, hu, h⟩ := h; split at h
    · rename_i g; cases h; exact .call0 i u w tr hu g.1 g.2.1 g.2.2.1 g.2.2.2
    · cases h
  case call1 i =>
    obtain ⟨u, hu, h⟩ := h; split at h
    · rename_i w e; split at h
      · rename_i g; cases h; exact .call1 i u w false hu g e
      · cases h
    · rename_i w e; split at h
      · rename_i g; cases h; exact .call1 i u w true hu g e
      · cases h
    · cases h
  case lock2 i ok =>
    obtain ⟨u, hu, h⟩ := h; split at h
    · rename_i w e; split at h
      · rename_i g; cases h; exact .lock2 i u w ok hu g e
      · cases h
    · cases h
  case nm i =>
    obtain ⟨u, hu, h⟩ := h; split at h
    · rename_i w e; split at h
      · rename_i g; cases h; exact .nm i u w hu g e
      · cases h
    · cases h
  case lock3 i =>
    obtain ⟨u, hu, h⟩ := h; split at h
    · rename_i g; cases h; exact .lock3 i u hu g.1 g.2
    · cases h
  case try2 i =>
    obtain ⟨u, hu, h⟩ := h; split at h
    · rename_i w e; split at h
      · rename_i g; cases h; exact .try2 i u w hu g e
      · cases h
    · cases h
  case try3 i =>
    obtain ⟨u, hu, h⟩ := h; split at h
    · rename_i w e; split at h
      · rename_i g; cases h; exact .try3 i u w hu g e
      · cases h
    · cases h
  case done w =>
    split at h
    · rename_i g; cases h; exact .done w g
    · cases h
  case failed w =>
    split at h
    · rename_i g; cases h; exact .failed w g
    · cases h
  case unlock i w =>
    obtain ⟨u, hu, h⟩ := h; split at h
    · rename_i g; cases h; exact .unlock i u w hu g.1 g.2.1 g.2.2
    · cases h
  case unl i =>
    obtain ⟨u, hu, h⟩ := h; split at h
    · rename_i g; cases h; exact .unl i u hu g.1 g.2
    · cases h
  case stop i w =>
    obtain ⟨u, hu, h⟩ := h; split at h
    · rename_i g; cases h; exact .stop i u w hu g.1 g.2.1 g.2.2.1 g.2.2.2.1 g.2.2.2.2
    · cases h
  case stopErr i =>
    obtain ⟨u, hu, h⟩ := h; split at h
    · rename_i g; cases h; exact .stopErr i u hu g.1 g.2
    · cases h
  case remove1 i =>
    obtain ⟨u, hu, h⟩ := h; split at h
    · rename_i g; cases h; exact .remove1 i u hu g.1 g.2
    · cases h
  case remove2 i =>
    obtain ⟨u, hu, h⟩ := h; split at h
    · rename_i g; cases h; exact .remove2 i u hu g.1 g.2
    · cases h
  case off i =>
    obtain ⟨u, hu, h⟩ := h; split at h
    · rename_i g; cases h; exact .off i u hu g.1 g.2
    · cases h
  case stop4 i =>
    obtain ⟨u, hu, h⟩ := h; split at h
    · rename_i g; cases h; exact .stop4 i u hu g.1 g.2
    · cases h
  case dn i =>
    obtain ⟨u, hu, h⟩ := h; split at h
    · rename_i g; cases h; exact .dn1 i u hu g
    · split at h
      · rename_i g; cases h; exact .dn2 i u hu g
      · split at h
        · rename_i g; cases h; exact .dn3 i u hu g
        · cases h

/-- The state after some steps. -/
def acts (s : St) : List Act → Option St
  | [] => some s
  | a :: l => (act s a).bind fun t => acts t l

theorem acts_run (l : List Act) : ∀ {s t : St}, Run s → acts s l = some t → Run t := by
  induction l with
  | nil => intro s t h e; cases e; exact h
  | cons a l ih =>
    intro s t h e
    simp only [acts, Option.bind_eq_some_iff] at e
    obtain ⟨u, hu, e⟩ := e
    exact ih (.step h (act_step hu)) e

def exRun (l : List Act) : St := (acts init l).getD init

theorem exRun_run (l : List Act) (h : (acts init l).isSome = true) : Run (exRun l) := by
  obtain ⟨t, ht⟩ := Option.isSome_iff_exists.mp h
  unfold exRun
  rw [ht]
  exact acts_run l .init ht

/-- A user finds the cache, locks it, stops it, unlocks and puts it. -/
def exStop : List Act :=
  [.task, .name 0, .call0 0 ⟨1, true⟩ false, .call1 0, .lock2 0 true, .done ⟨1, true⟩, .lock3 0,
   .stop 0 ⟨1, true⟩, .remove1 0, .dn 0, .dn 0, .dn 0, .remove2 0, .off 0, .stop4 0,
   .unlock 0 ⟨1, true⟩, .unl 0, .put 0]

example : Run (exRun exStop) ∧ (exRun exStop).freed = true ∧ (exRun exStop).told = [(1, true)] :=
  ⟨exRun_run _ (by decide), by decide, by decide⟩

/-- Two users; the second waits for the lock that the first has, the first stops the cache: the second
is refused, and puts its reference after that. -/
def exWait : List Act :=
  [.task, .task, .name 0, .name 1, .call0 0 ⟨1, true⟩ false, .call1 0, .lock2 0 true, .done ⟨1, true⟩, .lock3 0,
   .call0 1 ⟨2, false⟩ false, .call1 1, .lock2 1 true, .lock3 1,
   .stop 0 ⟨1, true⟩, .remove1 0, .dn 0, .dn 0, .dn 0, .remove2 0, .failed ⟨2, false⟩, .off 0, .stop4 0,
   .unlock 0 ⟨1, true⟩, .unl 0, .put 0, .put 1]

example : Run (exRun exWait) ∧ (exRun exWait).freed = true ∧ (exRun exWait).told = [(1, true), (2, false)] ∧
    (exRun exWait).cFrz = true ∧ owed (exRun exWait) = 0 ∧ (exRun exWait).leaked = 0 :=
  ⟨exRun_run _ (by decide), by decide, by decide, by decide, by decide, by decide⟩

/-- A stop that fails, then a trylock. -/
example : (exRun [.task, .name 0, .call0 0 ⟨1, true⟩ false, .call1 0, .lock2 0 true, .done ⟨1, true⟩, .lock3 0,
    .stop 0 ⟨1, true⟩, .stopErr 0, .unlock 0 ⟨1, true⟩, .unl 0, .call0 0 ⟨2, false⟩ true, .call1 0, .try2 0,
    .try3 0, .lock3 0]).told = [(1, true), (2, true)] := by decide

/-- Before the second one puts its reference the cache is not freed. -/
example : (exRun exWait.dropLast).freed = false ∧ owed (exRun exWait.dropLast) = 1 :=
  ⟨by decide, by decide⟩

/-- Two readers at once, then a writer that waits for both. -/
def exRead : List Act :=
  [.task, .task, .name 0, .name 1, .call0 0 ⟨1, false⟩ false, .call1 0, .lock2 0 true, .done ⟨1, false⟩, .lock3 0,
   .call0 1 ⟨2, false⟩ true, .call1 1, .try2 1, .try3 1, .lock3 1,
   .call0 0 ⟨3, true⟩ false, .call1 0, .lock2 0 true, .lock3 0]

example : Run (exRun exRead) ∧ (exRun exRead).held = [⟨1, false⟩, ⟨2, false⟩] ∧ (exRun exRead).q = [⟨3, true⟩] :=
  ⟨exRun_run _ (by decide), by decide, by decide⟩

example : (exRun (exRead ++ [.unlock 0 ⟨1, false⟩, .unl 0, .unlock 1 ⟨2, false⟩, .unl 1, .done ⟨3, true⟩])).held =
    [⟨3, true⟩] := by decide

/-- While the first user stops the cache, the second tries to lock it: it has its references, then
the first finishes and unlocks, then the second gets the lock and is refused. -/
def exLeak : List Act :=
  [.task, .task, .name 0, .name 1, .call0 0 ⟨1, true⟩ false, .call1 0, .lock2 0 true, .done ⟨1, true⟩, .lock3 0,
   .stop 0 ⟨1, true⟩, .call0 1 ⟨2, true⟩ true, .call1 1,
   .remove1 0, .remove2 0, .off 0, .stop4 0, .unlock 0 ⟨1, true⟩, .unl 0, .put 0,
   .try2 1, .try3 1, .lock3 1, .dn 1, .dn 1, .dn 1, .put 1]

/-- A refused trylock can keep the cache from being freed for ever: everybody put their references,
no call is under way, the cache is stopped. -/
theorem trylock_leak : ∃ s, Run s ∧ Quiet s ∧ s.held = [] ∧ owed s = 0 ∧ s.cFrz = true ∧
    s.told = [(1, true), (2, false)] ∧ ∀ t, Steps s t → t.freed = false := by
  have r : Run (exRun exLeak) := exRun_run _ (by decide)
  refine ⟨exRun exLeak, r, ⟨?_, by decide, by decide⟩, by decide, by decide, by decide, by decide, ?_⟩
  · decide
  · intro t g
    exact leak_forever r (by decide) g

/-- The user that stopped the cache unlocks a lock that is destroyed. -/
theorem unlock_after_destroy : ∃ s, Run s ∧ s.deadUnl = true ∧ s.told = [(1, true)] ∧ s.uaf = false :=
  ⟨exRun exStop, exRun_run _ (by decide), by decide, by decide, by decide⟩

end Verif.MngtLock
