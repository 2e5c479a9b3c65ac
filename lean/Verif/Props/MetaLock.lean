import Verif.Lemma.MetaLock

/-!
C47: the metadata locks exclude what they must exclude and cannot deadlock.

Specification: which stretches of code must not run at the same time (`Conflict`), when a thread
can go on (`CanRun`, with locks that let a waiting writer overtake readers), all in terms of the
lock functions' callers.
-/

namespace Verif.MetaLock

open HashLock (Needed)

/-- two accesses to the same thing, at least one of them writing. -/
def Clash (m m' : Mode) : Prop := m = .wr ∨ m' = .wr

/-- Specification: stretches of code that two threads must never be in at the same time. -/
inductive Conflict : Sect → Sect → Prop where
  | excl (s : Sect) : Conflict .excl s
  | buckets (m m' : Mode) (r r' : HashLock.Req) (h : Nat) :
      Clash m m' → Needed r h → Needed r' h → Conflict (.buckets m r) (.buckets m' r')
  | bucketReq (m m' : Mode) (r : HashLock.Req) (h : Nat) :
      Clash m m' → Needed r h → Conflict (.bucket m h) (.buckets m' r)
  | bucket (m m' : Mode) (h : Nat) : Clash m m' → Conflict (.bucket m h) (.bucket m' h)
  | page (m m' : Mode) (p : Nat) : Clash m m' → Conflict (.page m p) (.page m' p)
  | lru (m m' : Mode) (j : Nat) : Clash m m' → Conflict (.lru m j) (.lru m' j)

/-- states reached from the start by the given threads. -/
abbrev Reached (n : Nat) (tss : List (List Task)) : State → Prop :=
  Reach (fun s => s = start n tss) Step

theorem reached_inv {n : Nat} {tss : List (List Task)} (hw : ∀ ts ∈ tss, ∀ t ∈ ts, t.Wf n)
    {s : State} (h : Reached n tss s) : Inv n s :=
  h.inv (fun s hs => by subst hs; exact start_inv hw) (fun _ _ hi hst => step_inv hi hst)

theorem clash_absurd {n : Nat} {s : State} (hs : Inv n s) {i j : Nat} {t u : Thread} {l : Lock}
    {m m' : Mode} (hi : s.ths[i]? = some t) (hj : s.ths[j]? = some u) (hij : i ≠ j)
    (hc : Clash m m') (h1 : (l, m) ∈ t.held) (h2 : (l, m') ∈ u.held) : False := by
  rcases hc with rfl | rfl
  · exact wr_alone hs hi hj hij h1 h2
  · exact wr_alone hs hj hi (Ne.symm hij) h2 h1

/-- C47: whatever code paths any number of threads run, two threads are never in conflicting
stretches of code; in particular a thread under exclusive access is alone. -/
theorem never_together {n : Nat} (hn : 0 < n) {tss : List (List Task)}
    (hw : ∀ ts ∈ tss, ∀ t ∈ ts, t.Wf n) {s : State} (h : Reached n tss s) {i j : Nat}
    {t u : Thread} (hi : s.ths[i]? = some t) (hj : s.ths[j]? = some u) (hij : i ≠ j)
    {a b : Sect} (ha : a ∈ t.sect) (hb : b ∈ u.sect) : ¬ Conflict a b := by
  have hs := reached_inv hw h
  have ga := (hs.good t (List.mem_of_getElem? hi)).back a ha
  have gu := hs.good u (List.mem_of_getElem? hj)
  have gb := gu.back b hb
  intro hc
  cases hc with
  | excl =>
    cases hne : u.held with
    | cons x xs =>
      obtain ⟨k, m, hk, hm⟩ := gu.guard (by rw [hne]; simp)
      exact wr_alone hs hi hj hij (ga k hk) hm
    | nil =>
      rw [hne] at gb
      cases b with
      | excl => simpa using gb 0 hn
      | shared => obtain ⟨_, _, hm⟩ := gb; simp at hm
      | buckets m r => obtain ⟨⟨x, hx⟩, hm⟩ := gb; simpa using hm x hx
      | bucket m h => simp [Backed] at gb
      | page m p => simp [Backed] at gb
      | lru m p => simp [Backed] at gb
  | buckets m m' r r' x hm h1 h2 => exact clash_absurd hs hi hj hij hm (ga.2 x h1) (gb.2 x h2)
  | bucketReq m m' r x hm h1 => exact clash_absurd hs hi hj hij hm ga (gb.2 x h1)
  | bucket m m' x hm => exact clash_absurd hs hi hj hij hm ga gb
  | page m m' x hm => exact clash_absurd hs hi hj hij hm ga gb
  | lru m m' x hm => exact clash_absurd hs hi hj hij hm ga gb

/-- Specification: thread `t` can go on in `s`, with locks that make readers wait behind a waiting
writer. Giving locks back and try-locks never wait. -/
def CanRun (s : State) (t : Thread) : Prop :=
  match t.prog with
  | .done => False
  | .acq l m _ => (s.sem l).free m = true ∧
      (m = .rd → ∀ u ∈ s.ths, ∀ k, u.prog ≠ .acq l .wr k)
  | _ => True

/-- a thread that can run makes a step. -/
theorem canRun_step {s : State} {t : Thread} (ht : t ∈ s.ths) (h : CanRun s t) : ∃ s', Step s s' := by
  obtain ⟨i, hi⟩ := List.mem_iff_getElem?.1 ht
  unfold CanRun at h
  cases hp : t.prog with
  | done => rw [hp] at h; exact h.elim
  | acq l m k => rw [hp] at h; exact ⟨_, .acq i t l m k hi hp h.1⟩
  | tryAcq l m a b => exact ⟨_, .tryNo i t l m a b hi hp⟩
  | rel l m k => exact ⟨_, .rel i t l m k hi hp⟩
  | note x on k =>
    cases on with
    | true => exact ⟨_, .enter i t x k hi hp⟩
    | false => exact ⟨_, .leave i t x k hi hp⟩

/-- the lock a thread waits for. -/
def Prog.wants : Prog → Option (Lock × Mode)
  | .acq l m _ => some (l, m)
  | _ => none

/-- C47: no deadlock. As long as some thread has not finished, some thread can go on. -/
theorem no_deadlock {n : Nat} {tss : List (List Task)} (hw : ∀ ts ∈ tss, ∀ t ∈ ts, t.Wf n)
    {s : State} (h : Reached n tss s) (hd : ∃ t ∈ s.ths, t.prog ≠ .done) :
    ∃ t ∈ s.ths, CanRun s t := by
  have hs := reached_inv hw h
  refine Classical.byContradiction fun hno => ?_
  have hstuck : ∀ t ∈ s.ths, ¬ CanRun s t := fun t ht hc => hno ⟨t, ht, hc⟩
  -- every unfinished thread waits for a lock
  have hwait : ∀ t ∈ s.ths, t.prog ≠ .done → ∃ l m k, t.prog = .acq l m k := by
    intro t ht hne
    have hc := hstuck t ht
    unfold CanRun at hc
    cases hp : t.prog with
    | done => exact absurd hp hne
    | acq l m k => exact ⟨l, m, k, rfl⟩
    | tryAcq l m a b => rw [hp] at hc; exact absurd trivial hc
    | rel l m k => rw [hp] at hc; exact absurd trivial hc
    | note x on k => rw [hp] at hc; exact absurd trivial hc
  -- a holder of a lock waits for a later lock
  have hlater : ∀ u ∈ s.ths, ∀ l m, (l, m) ∈ u.held → ∃ l' m' k, u.prog = .acq l' m' k ∧ l.before l' := by
    intro u hu l m hm
    have ho := (hs.good u hu).ok
    obtain ⟨l', m', k, hp⟩ := hwait u hu (by
      intro hd; rw [hd] at ho; rw [ho.1] at hm; simp at hm)
    rw [hp] at ho
    exact ⟨l', m', k, hp, ho.1 _ hm⟩
  -- whoever waits for `l`, somebody waits for a later lock
  have hwr : ∀ l m, (s.sem l).free m = false → ∃ u ∈ s.ths, ∃ l' m' k, u.prog = .acq l' m' k ∧ l.before l' := by
    intro l m hf
    obtain ⟨u, hu, m', hm⟩ := not_free_held hs hf
    exact ⟨u, hu, hlater u hu l m' hm⟩
  have hnext : ∀ t ∈ s.ths, ∀ l m k, t.prog = .acq l m k →
      ∃ u ∈ s.ths, ∃ l' m' k, u.prog = .acq l' m' k ∧ l.before l' := by
    intro t ht l m k hp
    cases hf : (s.sem l).free m with
    | false => exact hwr l m hf
    | true =>
      have hc := hstuck t ht
      unfold CanRun at hc
      rw [hp] at hc
      have : ¬ (m = .rd → ∀ u ∈ s.ths, ∀ k, u.prog ≠ .acq l .wr k) := fun h' => hc ⟨hf, h'⟩
      refine Classical.byContradiction fun hnone => this (fun _ u hu k' hk' => ?_)
      -- the waiting writer itself is stuck, so the lock is not free for it
      have hcu := hstuck u hu
      unfold CanRun at hcu
      rw [hk'] at hcu
      cases hfw : (s.sem l).free .wr with
      | false => exact hnone (hwr l .wr hfw)
      | true => exact hcu ⟨hfw, fun h => by cases h⟩
  -- take a thread waiting for a last lock
  obtain ⟨t, ht, hne⟩ := hd
  obtain ⟨l, m, k, hp⟩ := hwait t ht hne
  obtain ⟨x, hx, hlast⟩ := exists_last ((s.ths.filterMap (fun t => t.prog.wants)).map (·.1)) (by
    intro h0
    have hmem : l ∈ (s.ths.filterMap (fun t => t.prog.wants)).map (·.1) :=
      List.mem_map.2 ⟨(l, m), List.mem_filterMap.2 ⟨t, ht, by rw [hp]; rfl⟩, rfl⟩
    rw [h0] at hmem
    simp at hmem)
  obtain ⟨⟨x', mx⟩, hx', rfl⟩ := List.mem_map.1 hx
  obtain ⟨v, hv, hwv⟩ := List.mem_filterMap.1 hx'
  cases hpv : v.prog with
  | acq lv mv kv =>
    rw [hpv] at hwv
    simp only [Prog.wants, Option.some.injEq, Prod.mk.injEq] at hwv
    obtain ⟨rfl, rfl⟩ := hwv
    obtain ⟨u, hu, l', m', k', hpu, hb⟩ := hnext v hv lv mv kv hpv
    exact hlast l' (List.mem_map.2 ⟨(l', m'), List.mem_filterMap.2 ⟨u, hu, by rw [hpu]; rfl⟩, rfl⟩) hb
  | done => rw [hpv] at hwv; simp [Prog.wants] at hwv
  | tryAcq l m a b => rw [hpv] at hwv; simp [Prog.wants] at hwv
  | rel l m k => rw [hpv] at hwv; simp [Prog.wants] at hwv
  | note x on k => rw [hpv] at hwv; simp [Prog.wants] at hwv

/-- what is left to do, over all threads. -/
def left (s : State) : Nat := (s.ths.map (fun t => t.prog.size)).sum

theorem left_set (ths : List Thread) (i : Nat) (t u : Thread) (h : ths[i]? = some t) :
    ((ths.set i u).map (fun t => t.prog.size)).sum + t.prog.size =
      (ths.map (fun t => t.prog.size)).sum + u.prog.size := by
  induction ths generalizing i with
  | nil => simp at h
  | cons a as ih =>
    cases i with
    | zero =>
      simp only [List.getElem?_cons_zero, Option.some.injEq] at h
      subst h
      simp only [List.set_cons_zero, List.map_cons, List.sum_cons]
      omega
    | succ i =>
      have := ih i (by simpa using h)
      simp only [List.set_cons_succ, List.map_cons, List.sum_cons] at this ⊢
      omega

theorem step_left {s s' : State} (h : Step s s') : left s' < left s := by
  have key : ∀ (i : Nat) (t u : Thread), s.ths[i]? = some t → u.prog.size < t.prog.size →
      ((s.ths.set i u).map (fun t => t.prog.size)).sum < left s := by
    intro i t u hi hlt
    have := left_set s.ths i t u hi
    unfold left
    omega
  cases h with
  | acq i t l m k hi hp hf => exact key i t _ hi (by rw [hp]; simp [Prog.size])
  | tryOk i t l m a b hi hp hf => exact key i t _ hi (by rw [hp]; simp [Prog.size]; omega)
  | tryNo i t l m a b hi hp => exact key i t _ hi (by rw [hp]; simp [Prog.size]; omega)
  | rel i t l m k hi hp => exact key i t _ hi (by rw [hp]; simp [Prog.size])
  | enter i t x k hi hp => exact key i t _ hi (by rw [hp]; simp [Prog.size])
  | leave i t x k hi hp => exact key i t _ hi (by rw [hp]; simp [Prog.size])

/-- a run of a given number of steps. -/
inductive Steps : State → Nat → State → Prop where
  | nil (s : State) : Steps s 0 s
  | snoc {s s' s'' : State} {k : Nat} : Steps s k s' → Step s' s'' → Steps s (k + 1) s''

/-- C47: no run goes on for ever; its length is bounded by what the threads have to do. -/
theorem run_bounded {s s' : State} {k : Nat} (h : Steps s k s') : k + left s' ≤ left s := by
  induction h with
  | nil => omega
  | snoc _ hst ih => have := step_left hst; omega

theorem finish {n : Nat} {tss : List (List Task)} (hw : ∀ ts ∈ tss, ∀ t ∈ ts, t.Wf n) (k : Nat)
    {s : State} (hk : left s ≤ k) (h : Reached n tss s) :
    ∃ s', Reached n tss s' ∧ ∀ t ∈ s'.ths, t.prog = .done := by
  induction k generalizing s with
  | zero =>
    refine ⟨s, h, fun t ht => Classical.byContradiction fun hne => ?_⟩
    obtain ⟨u, hu, hc⟩ := no_deadlock hw h ⟨t, ht, hne⟩
    obtain ⟨s', hst⟩ := canRun_step hu hc
    have := step_left hst
    omega
  | succ k ih =>
    by_cases hd : ∃ t ∈ s.ths, t.prog ≠ .done
    · obtain ⟨u, hu, hc⟩ := no_deadlock hw h hd
      obtain ⟨s', hst⟩ := canRun_step hu hc
      have := step_left hst
      exact ih (by omega) (.step h hst)
    · exact ⟨s, h, fun t ht => Classical.byContradiction fun hne => hd ⟨t, ht, hne⟩⟩

/-- C47: from every reached state all threads can finish. -/
theorem all_finish {n : Nat} {tss : List (List Task)} (hw : ∀ ts ∈ tss, ∀ t ∈ ts, t.Wf n)
    {s : State} (h : Reached n tss s) :
    ∃ s', Reached n tss s' ∧ ∀ t ∈ s'.ths, t.prog = .done :=
  finish hw (left s) (Nat.le_refl _) h

/-- C47: when all threads have finished, every lock is free again, whatever try-locks failed on
the way. -/
theorem all_released {n : Nat} {tss : List (List Task)} (hw : ∀ ts ∈ tss, ∀ t ∈ ts, t.Wf n)
    {s : State} (h : Reached n tss s) (hd : ∀ t ∈ s.ths, t.prog = .done) (l : Lock) :
    s.sem l = ⟨0, false⟩ := by
  have hs := reached_inv hw h
  have h0 : ∀ x, total s.ths x = 0 := by
    intro x
    refine Classical.byContradiction fun hne => ?_
    obtain ⟨t, ht, hx⟩ := exists_of_total_pos (ths := s.ths) (x := x) (by omega)
    have ho := (hs.good t ht).ok
    rw [hd t ht] at ho
    rw [ho.1] at hx
    simp at hx
  have h1 := hs.rd l
  have h2 := hs.wr l
  rw [h0] at h1 h2
  cases hsem : s.sem l with
  | mk r w =>
    rw [hsem] at h1 h2
    cases w with
    | true => simp at h2
    | false => simp at h1; rw [h1]

/-- C47: a thread that gave back its last lock is in no protected stretch of code, and one that
holds any lock has access to the metadata as a whole. -/
theorem access_held {n : Nat} {tss : List (List Task)} (hw : ∀ ts ∈ tss, ∀ t ∈ ts, t.Wf n)
    {s : State} (h : Reached n tss s) {t : Thread} (ht : t ∈ s.ths) (hne : t.held ≠ []) :
    ∃ i m, i < n ∧ (Lock.glob i, m) ∈ t.held :=
  ((reached_inv hw h).good t ht).guard hne

/-! Concrete runs. -/

/-- let thread `i` make its next step, a try-lock succeeding when it can. -/
def go (s : State) (i : Nat) : Option State :=
  match s.ths[i]? with
  | none => none
  | some t =>
    match t.prog with
    | .done => none
    | .acq l m k =>
      if (s.sem l).free m then
        some ⟨setSem s.sem l ((s.sem l).down m), s.ths.set i ⟨(l, m) :: t.held, t.sect, k⟩⟩
      else none
    | .tryAcq l m ok no =>
      if (s.sem l).free m then
        some ⟨setSem s.sem l ((s.sem l).down m), s.ths.set i ⟨(l, m) :: t.held, t.sect, ok⟩⟩
      else some ⟨s.sem, s.ths.set i ⟨t.held, t.sect, no⟩⟩
    | .rel l m k =>
      some ⟨setSem s.sem l ((s.sem l).up m), s.ths.set i ⟨t.held.erase (l, m), t.sect, k⟩⟩
    | .note x true k => some ⟨s.sem, s.ths.set i ⟨t.held, x :: t.sect, k⟩⟩
    | .note x false k => some ⟨s.sem, s.ths.set i ⟨t.held, t.sect.erase x, k⟩⟩

theorem go_step {s s' : State} {i : Nat} (h : go s i = some s') : Step s s' := by
  unfold go at h
  cases hi : s.ths[i]? with
  | none => rw [hi] at h; cases h
  | some t =>
    rw [hi] at h
    cases hp : t.prog with
    | done => simp [hp] at h
    | acq l m k =>
      simp only [hp] at h
      split at h
      · rename_i hf; cases h; exact .acq i t l m k hi hp hf
      · cases h
    | tryAcq l m a b =>
      simp only [hp] at h
      split at h
      · rename_i hf; cases h; exact .tryOk i t l m a b hi hp hf
      · cases h; exact .tryNo i t l m a b hi hp
    | rel l m k => simp only [hp] at h; cases h; exact .rel i t l m k hi hp
    | note x on k =>
      cases on with
      | true => simp only [hp] at h; cases h; exact .enter i t x k hi hp
      | false => simp only [hp] at h; cases h; exact .leave i t x k hi hp

/-- follow a schedule. -/
def goAll (s : State) : List Nat → Option State
  | [] => some s
  | i :: is => (go s i).bind (fun s' => goAll s' is)

theorem goAll_reach {P : State → Prop} {s s' : State} (hr : Reach P Step s) (is : List Nat)
    (h : goAll s is = some s') : Reach P Step s' := by
  induction is generalizing s with
  | nil => cases h; exact hr
  | cons i is ih =>
    simp only [goAll, Option.bind_eq_some_iff] at h
    obtain ⟨a, ha, hb⟩ := h
    exact ih (.step hr (go_step ha)) hb

/-- three threads: a request over buckets 3, 4, 0 of 5 that evicts a line from bucket 2, a flush
under exclusive access, a metadata write. -/
def demo : List (List Task) :=
  [[.prepare 1 ⟨5, 0, 3, 3⟩ [.lru .rd 0] [.page 7 [0]] [([(0, [(4, true), (2, false)])], 7)] []],
   [.excl [.page 7 []]], [.fill 0 [7, 8]]]

theorem demo_wf : ∀ ts ∈ demo, ∀ t ∈ ts, t.Wf 2 := by
  intro ts hts t ht
  simp only [demo, List.mem_cons, List.not_mem_nil, or_false] at hts
  rcases hts with rfl | rfl | rfl <;> simp only [List.mem_cons, List.not_mem_nil, or_false] at ht <;>
    subst ht <;> simp [Task.Wf]

/-- what is to be seen of a thread. -/
def Thread.view (t : Thread) : List (Lock × Mode) × List Sect × Option (Lock × Mode) :=
  (t.held, t.sect, t.prog.wants)

/-- 29 steps of the request, then three of the metadata write. -/
def demoRun : List Nat := List.replicate 29 0 ++ [2, 2, 2]

/-- the request works on its buckets with the victim's bucket locked too and waits for the page the
metadata write has locked; the flush waits for the first stripe; the metadata write can go on. -/
example : ∃ s, Reached 2 demo s ∧ s.ths.map Thread.view =
    [([(.hash 2, .wr), (.hash 4, .wr), (.hash 3, .wr), (.hash 0, .wr), (.glob 1, .rd)],
      [.bucket .wr 2, .buckets .wr ⟨5, 0, 3, 3⟩], some (.page 7, .rd)),
     ([], [], some (.glob 0, .wr)),
     ([(.page 7, .wr), (.glob 0, .rd)], [.shared], none)] := by
  have h : (goAll (start 2 demo) demoRun).map (fun s => s.ths.map Thread.view) = some
    [([(.hash 2, .wr), (.hash 4, .wr), (.hash 3, .wr), (.hash 0, .wr), (.glob 1, .rd)],
      [.bucket .wr 2, .buckets .wr ⟨5, 0, 3, 3⟩], some (.page 7, .rd)),
     ([], [], some (.glob 0, .wr)),
     ([(.page 7, .wr), (.glob 0, .rd)], [.shared], none)] := by decide +kernel
  obtain ⟨s, hs, hv⟩ := Option.map_eq_some_iff.1 h
  exact ⟨s, goAll_reach (.init rfl) _ hs, hv⟩

example : ∃ s', Reached 2 demo s' ∧ ∀ t ∈ s'.ths, t.prog = .done :=
  all_finish demo_wf (.init rfl)

/-! What the order does not cover: a cleaning order that runs in the context of `alru_clean`. -/

/-- all locks free, one thread. -/
def solo (p : Prog) : State := ⟨fun _ => ⟨0, false⟩, [⟨[], [], p⟩]⟩

theorem solo_tryAll {P : State → Prop} (ls taken : List Lock) (ok no : Prog) (sem : Lock → Sem)
    (hnd : ls.Nodup) (hfree : ∀ l ∈ ls, sem l = ⟨0, false⟩)
    (hr : Reach P Step ⟨sem, [⟨taken.map (·, .wr), [], tryAll taken ls ok no⟩]⟩) :
    ∃ sem', Reach P Step ⟨sem', [⟨(ls.reverse ++ taken).map (·, .wr), [], ok⟩]⟩ ∧
      (∀ l, sem' l = if l ∈ ls then ⟨0, true⟩ else sem l) := by
  induction ls generalizing taken sem with
  | nil => exact ⟨sem, by simpa [tryAll] using hr, by simp⟩
  | cons l ls ih =>
    obtain ⟨hnl, hnd'⟩ := List.nodup_cons.1 hnd
    have hst := Step.tryOk (s := ⟨sem, [⟨taken.map (·, .wr), [], tryAll taken (l :: ls) ok no⟩]⟩) 0
      ⟨taken.map (·, .wr), [], tryAll taken (l :: ls) ok no⟩ l .wr _ _ rfl rfl
      (by rw [show State.sem ⟨sem, _⟩ = sem from rfl, hfree l (by simp)]; rfl)
    have hr' := Reach.step hr hst
    have hs1 : ∀ x ∈ ls, setSem sem l ((sem l).down .wr) x = ⟨0, false⟩ := by
      intro x hx
      unfold setSem
      rw [if_neg (by rintro rfl; exact hnl hx)]
      exact hfree x (by simp [hx])
    obtain ⟨sem', h1, h2⟩ := ih (l :: taken) (setSem sem l ((sem l).down .wr)) hnd' hs1 hr'
    refine ⟨sem', by simpa using h1, fun x => ?_⟩
    rw [h2 x]
    by_cases hx : x ∈ ls
    · rw [if_pos hx, if_pos (by simp [hx])]
    · rw [if_neg hx]
      unfold setSem
      by_cases hxl : x = l
      · subst hxl
        rw [if_pos rfl, if_pos (by simp), hfree x (by simp)]
        rfl
      · rw [if_neg hxl, if_neg (by simp [hx, hxl])]

/-- If the cache device completes in the submitting context and the queue runs requests in the
pushing context, then `alru_clean` alone blocks for ever: the cleaning order asks for shared access
on a stripe the same thread has locked exclusively. For every number of stripes. -/
theorem alru_sync_deadlock (n idx h : Nat) (hi : idx < n) :
    ∃ s t, Reach (fun s => s = solo (alruSync n idx h)) Step s ∧ s.ths = [t] ∧
      t.prog ≠ .done ∧ t.sect = [.excl] ∧ ∀ s', ¬ Step s s' := by
  have hr : Reach (fun s => s = solo (alruSync n idx h)) Step (solo (alruSync n idx h)) := .init rfl
  obtain ⟨sem', h1, h2⟩ := solo_tryAll ((List.range n).map .glob) [] _ _ (fun _ => ⟨0, false⟩)
    (by
      rw [List.nodup_iff_pairwise_ne, List.pairwise_map]
      exact List.pairwise_lt_range.imp (fun hab heq => by cases heq; exact Nat.lt_irrefl _ hab))
    (fun _ _ => rfl) hr
  have hst := Reach.step h1 (Step.enter 0 _ .excl _ rfl rfl)
  refine ⟨_, _, hst, rfl, ?_, rfl, ?_⟩
  · intro hd; cases hd
  · have hw : sem' (.glob idx) = ⟨0, true⟩ := by
      rw [h2, if_pos (List.mem_map.2 ⟨idx, List.mem_range.2 hi, rfl⟩)]
    intro s' hs'
    cases hs' with
    | acq i t l m k hi' hp hf =>
      cases i with
      | succ i => simp at hi'
      | zero =>
        simp only [List.set_cons_zero, List.getElem?_cons_zero, Option.some.injEq] at hi'
        subst hi'
        simp only [protLock, startShared, Prog.acq.injEq] at hp
        obtain ⟨rfl, rfl, _⟩ := hp
        rw [show State.sem ⟨sem', _⟩ = sem' from rfl, hw] at hf
        simp [Sem.free] at hf
    | tryOk i t l m a b hi' hp hf =>
      cases i with
      | succ i => simp at hi'
      | zero =>
        simp only [List.set_cons_zero, List.getElem?_cons_zero, Option.some.injEq] at hi'
        subst hi'; simp [protLock, startShared] at hp
    | tryNo i t l m a b hi' hp =>
      cases i with
      | succ i => simp at hi'
      | zero =>
        simp only [List.set_cons_zero, List.getElem?_cons_zero, Option.some.injEq] at hi'
        subst hi'; simp [protLock, startShared] at hp
    | rel i t l m k hi' hp =>
      cases i with
      | succ i => simp at hi'
      | zero =>
        simp only [List.set_cons_zero, List.getElem?_cons_zero, Option.some.injEq] at hi'
        subst hi'; simp [protLock, startShared] at hp
    | enter i t x k hi' hp =>
      cases i with
      | succ i => simp at hi'
      | zero =>
        simp only [List.set_cons_zero, List.getElem?_cons_zero, Option.some.injEq] at hi'
        subst hi'; simp [protLock, startShared] at hp
    | leave i t x k hi' hp =>
      cases i with
      | succ i => simp at hi'
      | zero =>
        simp only [List.set_cons_zero, List.getElem?_cons_zero, Option.some.injEq] at hi'
        subst hi'; simp [protLock, startShared] at hp

example : ∃ s t, Reach (fun s => s = solo (alruSync 4 1 9)) Step s ∧ s.ths = [t] ∧
    t.prog ≠ .done ∧ t.sect = [.excl] ∧ ∀ s', ¬ Step s s' := alru_sync_deadlock 4 1 9 (by decide)

end Verif.MetaLock
