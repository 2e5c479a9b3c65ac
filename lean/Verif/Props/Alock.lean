import Verif.Lemma.AlockOrder

/-!
# C06, C07: cache line lock

A line is *granted* to a request from the moment the access word was taken for it until the
access word was given back.  `B` is the function that maps lines to wait list buckets, `n` the
number of requests; both are arbitrary, as are the lines, directions and schedules.

`exclusive`, `no_lost_wakeup`, `arrival_order` and `no_overtaking` hold for all executions,
including failing allocations.  The theorems marked `_partial` need that the allocation of a
waiter fails only for requests whose lines are in different buckets: otherwise
`ocf_alock_waitlist_remove_entry` may drop the wrong waiter and a line stays locked for ever
(`lock_leaked`).
-/

namespace Verif.Alock

/-- Lines granted, with the request they are granted to. -/
def granted (s : State) : List Tok := s.core.pend ++ s.core.held

/-- Executions from a fresh lock with `n` requests.  `nomem` bounds failing allocations. -/
abbrev Run (B : Nat → Nat) (nomem : List (Option Nat) → Prop) (n : Nat) : State → Prop :=
  Reach (· = State.init n) (Step B nomem)

theorem ci_init (hd : Prop) (n : Nat) : CI hd (State.init n).core := by
  refine ⟨fun e => ⟨rfl, rfl⟩, fun e _ => rfl, fun _ e n w h => ?_, rfl,
    fun e => List.Sublist.refl _⟩
  simp [State.init] at h

theorem run_ci {B : Nat → Nat} {nomem : List (Option Nat) → Prop} {n : Nat} {s : State}
    (h : Run B nomem n s) : CI False s.core := by
  refine Reach.inv (P := fun s => CI False s.core) ?_ ?_ s h
  · rintro _ rfl; exact ci_init False n
  · intro s t hs hst
    exact (ci_step (fun h => h.elim) (fun h => h.elim) hs hst).1

theorem run_inv {B : Nat → Nat} {n : Nat} {s : State} (h : Run B (distinctBuckets B) n s) :
    GInv B s ∧ KInv s := by
  refine Reach.inv (P := fun s => GInv B s ∧ KInv s) ?_ ?_ s h
  · rintro _ rfl; exact ⟨ginv_init B n, kinv_init n⟩
  · intro s t hs hst
    exact ⟨ginv_step hs.1 hst, kinv_step hs.1 hs.2 hst⟩

/-- C06: a line granted for writing is granted to nobody else. -/
theorem exclusive (B : Nat → Nat) (nomem : List (Option Nat) → Prop) (n : Nat) (s : State)
    (h : Run B nomem n s) (t : Tok) (ht : t ∈ granted s) (hw : t.write = true) :
    (granted s).filter (fun u => u.entry == t.entry) = [t] := by
  have hc := (run_ci h).acc t.entry
  rw [← readers_append, ← writers_append] at hc
  change Match _ (readers t.entry (granted s)) (writers t.entry (granted s)) at hc
  have hpos : 0 < writers t.entry (granted s) := by
    unfold writers; rw [List.countP_pos_iff]; exact ⟨t, ht, by simp [hw]⟩
  have hlen : ((granted s).filter (fun u => u.entry == t.entry)).length =
      readers t.entry (granted s) + writers t.entry (granted s) := by
    generalize granted s = l
    induction l with
    | nil => rfl
    | cons a l ih =>
      rw [readers_cons, writers_cons, List.filter_cons]
      by_cases ha : a.entry = t.entry
      · cases hb : a.write <;> simp [ha, ih] <;> omega
      · simp [ha, ih]
  have hmem : t ∈ (granted s).filter (fun u => u.entry == t.entry) := by simp [ht]
  cases hacc : s.core.access t.entry with
  | rd m => rw [hacc] at hc; simp only [Match] at hc; omega
  | wr =>
    rw [hacc] at hc
    simp only [Match] at hc
    have : ((granted s).filter (fun u => u.entry == t.entry)).length = 1 := by omega
    obtain ⟨a, ha⟩ := List.length_eq_one_iff.1 this
    rw [ha] at hmem ⊢
    simp at hmem
    rw [hmem]

/-- C06, seen from the requests: two different requests that were told they own their lines
have a line in common only if both read. -/
theorem owners_share_reading_partial (B : Nat → Nat) (n : Nat) (s : State)
    (h : Run B (distinctBuckets B) n s) (r r' : Nat) (q q' : Req) (e : Nat)
    (hq : s.reqs[r]? = some q) (hq' : s.reqs[r']? = some q') (hne : r ≠ r')
    (ho : q.pc = .owned) (ho' : q'.pc = .owned)
    (he : some e ∈ q.entries) (he' : some e ∈ q'.entries) :
    q.write = false ∧ q'.write = false := by
  have g := (run_inv h).1
  have key : ∀ (r : Nat) (q : Req), s.reqs[r]? = some q → q.pc = .owned → some e ∈ q.entries →
      ∃ i, q.tok r e i ∈ s.core.held := by
    intro r q hq ho he
    obtain ⟨i, hi⟩ := List.getElem?_of_mem he
    have hr := g.req r q hq
    simp only [RInv, ho] at hr
    exact ⟨i, held_of_N g hq hi (by rw [hr.1 i, need_some hi]; simp) hr.2.1⟩
  obtain ⟨i, hi⟩ := key r q hq ho he
  obtain ⟨j, hj⟩ := key r' q' hq' ho' he'
  have m1 : q.tok r e i ∈ granted s := List.mem_append_right _ hi
  have m2 : q'.tok r' e j ∈ granted s := List.mem_append_right _ hj
  have f1 : ∀ u : Tok, u.entry = e → q.tok r e i ∈ (granted s).filter (fun v => v.entry == u.entry)
      := fun u hu => List.mem_filter.2 ⟨m1, by simp [hu, Req.tok]⟩
  have f2 : ∀ u : Tok, u.entry = e → q'.tok r' e j ∈ (granted s).filter (fun v => v.entry == u.entry)
      := fun u hu => List.mem_filter.2 ⟨m2, by simp [hu, Req.tok]⟩
  have bad : q.tok r e i ≠ q'.tok r' e j := by
    intro hh; exact hne (by simpa [Req.tok] using congrArg Tok.req hh)
  constructor
  · cases hw : q.write
    · rfl
    · exfalso
      have := f2 (q.tok r e i) rfl
      rw [exclusive B _ n s h _ m1 hw] at this
      simp at this
      exact bad this.symm
  · cases hw : q'.write
    · rfl
    · exfalso
      have := f1 (q'.tok r' e j) rfl
      rw [exclusive B _ n s h _ m2 hw] at this
      simp at this
      exact bad this

/-- C07: nobody waits for a line that is granted to nobody. -/
theorem no_lost_wakeup (B : Nat → Nat) (nomem : List (Option Nat) → Prop) (n : Nat) (s : State)
    (h : Run B nomem n s) (e : Nat) (hf : ∀ t ∈ granted s, t.entry ≠ e) :
    ∀ w ∈ s.core.wl, w.entry ≠ e := by
  have hc := run_ci h
  have ha := hc.acc e
  rw [readers_ne (fun w hw => hf w (List.mem_append_left _ hw)),
    readers_ne (fun w hw => hf w (List.mem_append_right _ hw)),
    writers_ne (fun w hw => hf w (List.mem_append_left _ hw)),
    writers_ne (fun w hw => hf w (List.mem_append_right _ hw))] at ha
  have hi : s.core.access e = .rd 0 := by
    cases hacc : s.core.access e with
    | rd m => rw [hacc] at ha; simp only [Match] at ha; rw [← ha.1]
    | wr => rw [hacc] at ha; simp only [Match] at ha; omega
  intro w hw he
  have : w ∈ of e s.core.wl := mem_of.2 ⟨hw, he⟩
  rw [hc.idle e hi] at this
  exact absurd this (by simp)

/-- C07: waiters of a line are granted it in arrival order (some may have given up). -/
theorem arrival_order (B : Nat → Nat) (nomem : List (Option Nat) → Prop) (n : Nat) (s : State)
    (h : Run B nomem n s) (e : Nat) :
    (s.core.woken.filter (fun t => t.entry == e) ++
      s.core.wl.filter (fun t => t.entry == e)).Sublist
      (s.core.arr.filter (fun t => t.entry == e)) :=
  (run_ci h).order e

/-- C07: while somebody waits for a line, it is granted to nobody but its waiters. -/
theorem no_overtaking (B : Nat → Nat) (nomem : List (Option Nat) → Prop) (n : Nat) (s s' : State)
    (h : Run B nomem n s) (st : Step B nomem s s') (t : Tok) (ht : t ∈ granted s')
    (hnew : t ∉ granted s) (hwait : ∃ w ∈ s.core.wl, w.entry = t.entry) : t ∈ s.core.wl := by
  have hc := run_ci h
  have nog : ∀ (c : Core) (u : Tok), c.pend = s.core.pend → c.held = s.core.held ++ [u] →
      (s.core.access u.entry = .rd 0 ∨ of u.entry s.core.wl = []) →
      t ∈ c.pend ++ c.held → False := by
    intro c u h1 h2 h3 h4
    rw [h1, h2, ← List.append_assoc] at h4
    rcases List.mem_append.1 h4 with h5 | h5
    · exact hnew h5
    · simp only [List.mem_singleton] at h5
      subst h5
      obtain ⟨w, hw, he⟩ := hwait
      have : w ∈ of t.entry s.core.wl := mem_of.2 ⟨hw, he⟩
      rw [h3.elim (hc.idle _) id] at this
      exact absurd this (by simp)
  have unl : ∀ u ∈ s.core.held, t ∈ (unlockSection s.core u).pend ++ (unlockSection s.core u).held
      → t ∈ s.core.wl := by
    intro u hu h4
    have hw := unlock_wake hc hu
    rcases List.mem_append.1 h4 with h5 | h5
    · rcases List.mem_append.1 (show t ∈ s.core.pend ++ _ from h5) with h6 | h6
      · exact absurd (List.mem_append_left _ h6) hnew
      · have : t ∈ of u.entry s.core.wl := by rw [hw.split]; exact List.mem_append_left _ h6
        exact (mem_of.1 this).1
    · exact absurd (List.mem_append_right _ (List.mem_of_mem_erase h5)) hnew
  cases st with
  | fastOk r q i e c h1 h2 h3 h4 =>
    obtain ⟨_, _, p3, p4, p5⟩ := tryIdle_eff h4
    exact (nog c _ p3 p4 (.inl p5) ht).elim
  | slowTry r q i e c h1 h2 h3 h4 =>
    obtain ⟨_, _, p3, p4, p5⟩ := tryIdle_eff h4
    exact (nog c _ p3 p4 (.inl p5) ht).elim
  | enqGot r q i e h1 h2 h3 h4 h5 =>
    obtain ⟨_, _, p3, p4, p5⟩ := lockSection_true h5
    exact (nog _ _ p3 p4 p5 ht).elim
  | enqWait r q i e h1 h2 h3 h4 h5 =>
    simp only [granted, State.put] at ht
    rw [lockSection_false h5] at ht
    exact absurd ht hnew
  | rollUnlock r q k e h1 h2 h3 h4 h5 => exact unl _ h4 ht
  | errUnlock r q k e h1 h2 h3 h4 h5 => exact unl _ h4 ht
  | unlockDo r q k e h1 h2 h3 h4 h5 => exact unl _ h4 ht
  | notify u q h1 h2 =>
    exfalso
    apply hnew
    simp only [granted, State.put, notifyCore] at ht ⊢
    rcases List.mem_append.1 ht with h5 | h5
    · exact List.mem_append_left _ (List.mem_of_mem_erase h5)
    · rcases List.mem_append.1 h5 with h6 | h6
      · exact List.mem_append_right _ h6
      · simp only [List.mem_singleton] at h6
        rw [h6]; exact List.mem_append_left _ h1
  | _ => exact absurd ht hnew

/-- No assertion of the access word helpers fires, and none of the request level code. -/
theorem no_bug_partial (B : Nat → Nat) (n : Nat) (s : State)
    (h : Run B (distinctBuckets B) n s) : s.core.bug = false ∧ s.bug = false :=
  ⟨(run_inv h).1.ci.bug, (run_inv h).1.bug⟩

/-- The assertions of the access word helpers never fire, in any execution. -/
theorem no_bug (B : Nat → Nat) (nomem : List (Option Nat) → Prop) (n : Nat) (s : State)
    (h : Run B nomem n s) : s.core.bug = false := (run_ci h).bug

/-- C07: an owner has been told so exactly once for this acquisition, and holds every line it
asked for; a waiting request has not been told and misses a line. -/
theorem resumed_once_partial (B : Nat → Nat) (n : Nat) (s : State)
    (h : Run B (distinctBuckets B) n s) (r : Nat) (q : Req) (hq : s.reqs[r]? = some q) :
    (q.pc = .owned → q.resumed = 1 ∧
      ∀ (i e : Nat), q.entries[i]? = some (some e) → ⟨e, q.write, r, i⟩ ∈ s.core.held) ∧
    (q.pc = .waiting → q.resumed = 0 ∧
      ∃ (i e : Nat), q.entries[i]? = some (some e) ∧
        (⟨e, q.write, r, i⟩ ∈ s.core.wl ∨ ⟨e, q.write, r, i⟩ ∈ s.core.pend)) := by
  have g := (run_inv h).1
  have hr := g.req r q hq
  constructor
  · intro ho
    simp only [RInv, ho] at hr
    refine ⟨hr.2.2.2, fun i e hi => ?_⟩
    exact held_of_N g hq hi (by rw [hr.1 i, need_some hi]; simp) hr.2.1
  · intro ho
    simp only [RInv, ho] at hr
    refine ⟨hr.2.2.2, ?_⟩
    obtain ⟨t, ht, htr⟩ := W_pos_iff.1 hr.2.2.1
    obtain ⟨q0, h1, h2, h3⟩ := g.tok t (wlp_sub ht)
    rw [htr, hq] at h1
    cases h1
    refine ⟨t.idx, t.entry, h2, ?_⟩
    have : (⟨t.entry, q.write, r, t.idx⟩ : Tok) = t := by
      cases t; simp_all
    rw [this]
    simpa [wlp] using ht

/-- C07: requests never block each other for ever.  If some request waits, then either a wake-up
is on its way, or some request is neither waiting nor idle. -/
theorem no_deadlock_partial (B : Nat → Nat) (n : Nat) (s : State)
    (h : Run B (distinctBuckets B) n s) (r : Nat) (q : Req) (hq : s.reqs[r]? = some q)
    (hw : q.pc = .waiting) :
    s.core.pend ≠ [] ∨ ∃ (r' : Nat) (q' : Req), s.reqs[r']? = some q' ∧ q'.pc ≠ .idle ∧
      q'.pc ≠ .waiting := by
  obtain ⟨g, k⟩ := run_inv h
  apply Classical.byContradiction
  intro hno
  have hp : s.core.pend = [] := Classical.byContradiction (fun hh => hno (.inl hh))
  have hall : ∀ (r' : Nat) (q' : Req), s.reqs[r']? = some q' → q'.pc = .idle ∨ q'.pc = .waiting := by
    intro r' q' h1
    apply Classical.byContradiction
    intro hh
    exact hno (.inr ⟨r', q', h1, fun h2 => hh (.inl h2), fun h2 => hh (.inr h2)⟩)
  obtain ⟨m, ⟨qm, hm1, hm2⟩, hmin⟩ := least_waiting (s := s) ⟨r, q, hq, slowish_of hw rfl⟩
  have hmw : qm.pc = .waiting := by
    rcases hall m qm hm1 with h1 | h1
    · rw [h1] at hm2; exact absurd hm2 (by decide)
    · exact h1
  have hr := g.req m qm hm1
  simp only [RInv, hmw] at hr
  obtain ⟨w, hwm, hwr⟩ := W_pos_iff.1 hr.2.2.1
  rw [wlp, hp, List.append_nil] at hwm
  -- somebody holds the line
  obtain ⟨u, hu, hue⟩ : ∃ u ∈ granted s, u.entry = w.entry := by
    apply Classical.byContradiction
    intro hh
    exact no_lost_wakeup B _ n s h w.entry (fun t ht he => hh ⟨t, ht, he⟩) w hwm rfl
  rw [granted, hp, List.nil_append] at hu
  obtain ⟨qu, hu1, _⟩ := g.tok u (by simp [toks, hu])
  rcases hall u.req qu hu1 with h1 | h1
  · have hru := g.req _ qu hu1
    simp only [RInv, h1] at hru
    have := N_pos (c := s.core) (t := u) (by simp [toks, hu])
    rw [hru.1] at this
    omega
  · have hsl : sl s.reqs u.req := ⟨qu, hu1, slowish_of h1 rfl⟩
    have h2 := k.k4 w hwm u (.inr hu) hue hsl
    have h3 := hmin u.req hsl
    rw [hwr] at h2
    omega

/-- The thread of request `r` can make a step that changes its program point. -/
def Moves (B : Nat → Nat) (s : State) (r : Nat) : Prop :=
  ∃ s' q q', Calm B s s' ∧ s.reqs[r]? = some q ∧ s'.reqs[r]? = some q' ∧ q'.pc ≠ q.pc

theorem moves_intro {B : Nat → Nat} {s : State} {r : Nat} {q q' : Req} {c : Core} {k : Nat}
    {b : Bool} (hq : s.reqs[r]? = some q) (st : Calm B s ⟨c, s.reqs.set r q', k, b⟩)
    (hne : q'.pc ≠ q.pc) : Moves B s r :=
  ⟨_, q, q', st, hq, List.getElem?_set_self (List.getElem?_eq_some_iff.1 hq).1, hne⟩

/-- C07: a request that is neither idle nor waiting never gets stuck: once the wake-ups on their
way are delivered it can go on, or it queues for the mutex whose holder can go on. -/
theorem busy_moves_partial (B : Nat → Nat) (n : Nat) (s : State)
    (h : Run B (distinctBuckets B) n s) (hp : s.core.pend = []) (r : Nat) (q : Req)
    (hq : s.reqs[r]? = some q) (hi : q.pc ≠ .idle) (hw : q.pc ≠ .waiting) :
    Moves B s r ∨ (q.pc = .mutexWait ∧ ∃ r', Moves B s r') := by
  have g := (run_inv h).1
  have hquiet : ∀ e, quiet B s.core e := fun e t ht => by rw [hp] at ht; exact absurd ht (by simp)
  have idx : ∀ (q : Req) (i : Nat), i < q.entries.length →
      q.entries[i]? = some none ∨ ∃ e, q.entries[i]? = some (some e) := by
    intro q i hi
    rw [List.getElem?_eq_getElem hi]
    cases q.entries[i] with
    | none => exact .inl rfl
    | some e => exact .inr ⟨e, rfl⟩
  have inm : ∀ (r : Nat) (q : Req), s.reqs[r]? = some q → q.pc.inMutex = true → Moves B s r := by
    intro r q hq hm
    have hr := g.req r q hq
    cases hpc : q.pc with
    | slow i =>
      simp only [RInv, hpc] at hr
      rcases Nat.lt_or_eq_of_le hr.1 with hlt | heq
      · rcases idx q i hlt with h1 | ⟨e, h1⟩
        · exact moves_intro hq (.slowSkip _ r q i hq hpc h1) (by simp [hpc])
        · cases ht : tryIdle s.core (q.tok r e i) with
          | some c => exact moves_intro hq (.slowTry _ r q i e c hq hpc h1 ht) (by simp [hpc])
          | none => exact moves_intro hq (.slowAlloc _ r q i e hq hpc h1 ht) (by simp [hpc])
      · exact moves_intro hq (.slowEnd _ r q hq (by rw [hpc, heq])) (by simp [hpc])
    | enq i =>
      simp only [RInv, hpc] at hr
      obtain ⟨e, h1⟩ := need_true hr.2.2.2.2
      cases hl : (lockSection s.core (q.tok r e i)).2 with
      | true => exact moves_intro hq (.enqGot _ r q i e hq hpc h1 (hquiet e) hl) (by simp [hpc])
      | false =>
        exact moves_intro hq (.enqWait _ r q i e hq hpc h1 (hquiet e) hl) (by simp [hpc])
    | got i => exact moves_intro hq (.slowGot _ r q i hq hpc) (by simp [hpc])
    | err k =>
      simp only [RInv, hpc] at hr
      cases k with
      | zero => exact moves_intro hq (.errDone _ r q hq hpc) (by simp [hpc])
      | succ k =>
        rcases idx q k hr.2.2.2.2.2 with h1 | ⟨e, h1⟩
        · exact moves_intro hq (.errSkip _ r q k hq hpc h1) (by simp [hpc])
        · by_cases hh : q.tok r e k ∈ s.core.held
          · exact moves_intro hq (.errUnlock _ r q k e hq hpc h1 hh (hquiet e)) (by simp [hpc])
          · exact moves_intro hq (.errRemove _ r q k e hq hpc h1 hh (hquiet e)) (by simp [hpc])
    | final =>
      by_cases h0 : q.remaining - 1 = 0
      · exact moves_intro hq (.finalOwned _ r q hq hpc h0) (by simp [hpc])
      · exact moves_intro hq (.finalWait _ r q hq hpc h0) (by simp [hpc])
    | _ => rw [hpc] at hm; exact absurd hm (by simp [PC.inMutex])
  have hr := g.req r q hq
  cases hpc : q.pc with
  | idle => exact absurd hpc hi
  | waiting => exact absurd hpc hw
  | fast i =>
    left
    simp only [RInv, hpc] at hr
    rcases Nat.lt_or_eq_of_le hr.1 with hlt | heq
    · rcases idx q i hlt with h1 | ⟨e, h1⟩
      · exact moves_intro hq (.fastSkip _ r q i hq hpc h1) (by simp [hpc])
      · cases ht : tryIdle s.core (q.tok r e i) with
        | some c => exact moves_intro hq (.fastOk _ r q i e c hq hpc h1 ht) (by simp [hpc])
        | none => exact moves_intro hq (.fastFail _ r q i e hq hpc h1 ht) (by simp [hpc])
    · exact moves_intro hq (.fastDone _ r q hq (by rw [hpc, heq])) (by simp [hpc])
  | roll k =>
    left
    cases k with
    | zero => exact moves_intro hq (.rollDone _ r q hq hpc) (by cases q.tryOnly <;> simp [hpc])
    | succ k =>
      by_cases hh : ∃ e, q.entries[k]? = some (some e) ∧ q.tok r e k ∈ s.core.held
      · obtain ⟨e, h1, h2⟩ := hh
        exact moves_intro hq (.rollUnlock _ r q k e hq hpc h1 h2 (hquiet e)) (by simp [hpc])
      · exact moves_intro hq (.rollSkip _ r q k hq hpc (fun e h1 h2 => hh ⟨e, h1, h2⟩))
          (by simp [hpc])
  | mutexWait =>
    by_cases hm : mutexFree s
    · left; exact moves_intro hq (.mutex _ r q hq hpc hm) (by simp [hpc])
    · right
      refine ⟨rfl, ?_⟩
      apply Classical.byContradiction
      intro hno
      apply hm
      intro q' hq'
      obtain ⟨r', hr'⟩ := List.getElem?_of_mem hq'
      cases hb : q'.pc.inMutex
      · rfl
      · exact absurd ⟨r', inm r' q' hr' hb⟩ hno
  | owned => left; exact moves_intro hq (.unlockStart _ r q hq hpc) (by simp [hpc])
  | unlock k =>
    left
    simp only [RInv, hpc] at hr
    rcases Nat.lt_or_eq_of_le hr.1 with hlt | heq
    · by_cases hh : ∃ e, q.entries[k]? = some (some e) ∧ q.tok r e k ∈ s.core.held
      · obtain ⟨e, h1, h2⟩ := hh
        exact moves_intro hq (.unlockDo _ r q k e hq hpc h1 h2 (hquiet e)) (by simp [hpc])
      · exact moves_intro hq (.unlockSkip _ r q k hq hpc hlt (fun e h1 h2 => hh ⟨e, h1, h2⟩))
          (by simp [hpc])
    · exact moves_intro hq (.unlockDone _ r q hq (by rw [hpc, heq])) (by simp [hpc])
  | _ => left; exact inm r q hq (by rw [hpc]; rfl)

/-- A reader waits only behind a writer, unless a waiting writer was dropped by a failed
allocation: while readers hold a line, its first waiter is a writer. -/
theorem readers_wait_for_writer_partial (B : Nat → Nat) (n : Nat) (s : State)
    (h : Run B (fun _ => False) n s) (e : Nat) (w : Tok)
    (hr : ∃ t ∈ granted s, t.entry = e ∧ t.write = false)
    (hw : (s.core.wl.filter (fun t => t.entry == e)).head? = some w) : w.write = true := by
  have hc : CI True s.core ∧ (True → ∀ q ∈ s.reqs, ∀ k, q.pc ≠ .err k) := by
    refine Reach.inv (P := fun s => CI True s.core ∧ (True → ∀ q ∈ s.reqs, ∀ k, q.pc ≠ .err k))
      ?_ ?_ s h
    · rintro _ rfl
      refine ⟨ci_init True n, fun _ q hq k => ?_⟩
      rw [List.eq_of_mem_replicate hq]; simp
    · intro s t hs hst
      exact ci_step (fun _ _ hf => hf) hs.2 hs.1 hst
  obtain ⟨t, ht, hte, htw⟩ := hr
  have ha := hc.1.acc e
  rw [← readers_append, ← writers_append] at ha
  have hpos : 0 < readers e (s.core.pend ++ s.core.held) := by
    unfold readers; rw [List.countP_pos_iff]; exact ⟨t, ht, by simp [htw, hte]⟩
  cases hacc : s.core.access e with
  | wr => rw [hacc] at ha; simp only [Match] at ha; omega
  | rd m =>
    cases m with
    | zero => rw [hacc] at ha; simp only [Match] at ha; omega
    | succ m => exact hc.1.head trivial e m w hacc hw

/-! ## Executions used as examples -/

/-- A choice of the scheduler. -/
inductive Act where
  | start (r : Nat) (w to : Bool) (es : List (Option Nat))
  | go (r : Nat)
  | nomem (r : Nat)
  | notify

/-- Decidable form of `distinctLines`. -/
def distinctB (es : List (Option Nat)) : Bool := decide ((es.filterMap id).Nodup)

theorem distinctB_sound {es : List (Option Nat)} (h : distinctB es = true) : distinctLines es := by
  have h := of_decide_eq_true h
  intro i j e h1 h2
  induction es generalizing i j with
  | nil => simp at h1
  | cons a es ih =>
    have htail : (es.filterMap id).Nodup := by
      cases a with
      | none => exact h
      | some v => exact (List.nodup_cons.1 h).2
    have hhead : ∀ k : Nat, a = some e → es[k]? = some (some e) → False := by
      intro k ha hk
      subst ha
      apply (List.nodup_cons.1 h).1
      exact List.mem_filterMap.2 ⟨some e, List.mem_of_getElem? hk, rfl⟩
    cases i with
    | zero =>
      cases j with
      | zero => rfl
      | succ j =>
        simp only [List.getElem?_cons_zero, Option.some.injEq, List.getElem?_cons_succ] at h1 h2
        exact (hhead j h1 h2).elim
    | succ i =>
      cases j with
      | zero =>
        simp only [List.getElem?_cons_zero, Option.some.injEq, List.getElem?_cons_succ] at h1 h2
        exact (hhead i h2 h1).elim
      | succ j =>
        simp only [List.getElem?_cons_succ] at h1 h2
        rw [ih (decide_eq_true htail) htail i j h1 h2]

/-- One scheduled step, if it is possible. -/
def exec (B : Nat → Nat) (nm : Bool) (s : State) : Act → Option State
  | .start r w to es =>
    match s.reqs[r]? with
    | some q => if q.pc = .idle ∧ distinctB es = true then
        some { s.put s.core r { q with write := w, tryOnly := to, entries := es
                                       pc := .fast 0, resumed := 0 } with
          bug := s.bug || q.remaining != 0 }
      else none
    | none => none
  | .notify =>
    match s.core.pend with
    | [] => none
    | t :: _ =>
      match s.reqs[t.req]? with
      | some q => some { s.put (notifyCore s.core t) t.req (notifyReq q).1 with
          bug := s.bug || (notifyReq q).2 }
      | none => none
  | .nomem r =>
    match s.reqs[r]? with
    | some q =>
      match q.pc with
      | .slow i =>
        match q.entries[i]? with
        | some (some e) =>
          match tryIdle s.core (q.tok r e i) with
          | none => if nm = true then some (s.put s.core r { q with pc := .err (i + 1) }) else none
          | some _ => none
        | _ => none
      | _ => none
    | none => none
  | .go r =>
    match s.reqs[r]? with
    | some q =>
      match q.pc with
      | .fast i =>
        match q.entries[i]? with
        | some none => some (s.put s.core r { q with pc := .fast (i + 1) })
        | some (some e) =>
          match tryIdle s.core (q.tok r e i) with
          | some c => some (s.put c r { q with pc := .fast (i + 1) })
          | none => some (s.put s.core r { q with pc := .roll (i + 1) })
        | none => if i = q.entries.length then
            some (s.put s.core r { q with pc := .owned, resumed := q.resumed + 1 })
          else none
      | .roll 0 =>
        some (s.put s.core r { q with pc := if q.tryOnly then .idle else .mutexWait })
      | .roll (k + 1) =>
        match q.entries[k]? with
        | some (some e) =>
          if q.tok r e k ∈ s.core.held then
            if s.core.pend = [] then
              some (s.put (unlockSection s.core (q.tok r e k)) r { q with pc := .roll k })
            else none
          else some (s.put s.core r { q with pc := .roll k })
        | _ => some (s.put s.core r { q with pc := .roll k })
      | .mutexWait =>
        if s.reqs.all (fun q => !q.pc.inMutex) then
          some { s.put s.core r
            { q with pc := .slow 0, remaining := q.entries.length + 1, ticket := s.clock } with
            clock := s.clock + 1
            bug := s.bug || q.remaining != 0 }
        else none
      | .slow i =>
        match q.entries[i]? with
        | some none => some (s.put s.core r
            { q with pc := .slow (i + 1), remaining := q.remaining - 1 })
        | some (some e) =>
          match tryIdle s.core (q.tok r e i) with
          | some c => some (s.put c r { q with pc := .got i })
          | none => some (s.put s.core r { q with pc := .enq i })
        | none => if i = q.entries.length then some (s.put s.core r { q with pc := .final })
          else none
      | .enq i =>
        match q.entries[i]? with
        | some (some e) =>
          if s.core.pend = [] then
            if (lockSection s.core (q.tok r e i)).2 then
              some (s.put (lockSection s.core (q.tok r e i)).1 r { q with pc := .got i })
            else some (s.put (lockSection s.core (q.tok r e i)).1 r { q with pc := .slow (i + 1) })
          else none
        | _ => none
      | .got i => some { s.put s.core r
            { q with pc := .slow (i + 1), remaining := q.remaining - 1 } with
          bug := s.bug || q.remaining - 1 == 0 }
      | .final => if q.remaining - 1 = 0 then
            some (s.put s.core r
              { q with pc := .owned, remaining := q.remaining - 1, resumed := q.resumed + 1 })
          else some (s.put s.core r { q with pc := .waiting, remaining := q.remaining - 1 })
      | .err 0 => some (s.put s.core r { q with pc := .idle, remaining := 0 })
      | .err (k + 1) =>
        match q.entries[k]? with
        | some none => some (s.put s.core r { q with pc := .err k })
        | some (some e) =>
          if s.core.pend = [] then
            if q.tok r e k ∈ s.core.held then
              some (s.put (unlockSection s.core (q.tok r e k)) r { q with pc := .err k })
            else some (s.put (removeWaiter B s.core (B e) r) r { q with pc := .err k })
          else none
        | none => none
      | .owned => some (s.put s.core r { q with pc := .unlock 0 })
      | .unlock k =>
        match q.entries[k]? with
        | some none => some (s.put s.core r { q with pc := .unlock (k + 1) })
        | some (some e) =>
          if q.tok r e k ∈ s.core.held then
            if s.core.pend = [] then
              some (s.put (unlockSection s.core (q.tok r e k)) r { q with pc := .unlock (k + 1) })
            else none
          else none
        | none => if k = q.entries.length then some (s.put s.core r { q with pc := .idle })
          else none
      | _ => none
    | none => none

theorem quiet_of_nil {B : Nat → Nat} {s : State} (h : s.core.pend = []) (e : Nat) :
    quiet B s.core e := fun t ht => by rw [h] at ht; exact absurd ht (by simp)

theorem exec_sound {B : Nat → Nat} {nomem : List (Option Nat) → Prop} {nm : Bool}
    (hn : nm = true → ∀ es, nomem es)
    {s s' : State} {a : Act} (h : exec B nm s a = some s') : Step B nomem s s' := by
  unfold exec at h
  split at h
  · split at h
    · rename_i q hq
      split at h
      · rename_i hc; cases h; exact .start _ _ q _ _ _ hq hc.1 (distinctB_sound hc.2)
      · exact absurd h (by simp)
    · exact absurd h (by simp)
  · split at h
    · exact absurd h (by simp)
    · rename_i t _ hp
      split at h
      · rename_i q hq; cases h; exact .notify _ t q (by rw [hp]; simp) hq
      · exact absurd h (by simp)
  · split at h
    · rename_i q hq
      split at h
      · rename_i i hpc
        split at h
        · rename_i e he
          split at h
          · rename_i ht
            split at h
            · rename_i hnm; cases h; exact .slowNoMem _ _ q i e hq hpc he ht (hn hnm _)
            · exact absurd h (by simp)
          · exact absurd h (by simp)
        · exact absurd h (by simp)
      · exact absurd h (by simp)
    · exact absurd h (by simp)
  · split at h
    · rename_i q hq
      split at h
      · rename_i i hpc
        split at h
        · rename_i he; cases h; exact .fastSkip _ _ q i hq hpc he
        · rename_i e he
          split at h
          · rename_i c ht; cases h; exact .fastOk _ _ q i e c hq hpc he ht
          · rename_i ht; cases h; exact .fastFail _ _ q i e hq hpc he ht
        · split at h
          · rename_i hl; cases h; subst hl; exact .fastDone _ _ q hq hpc
          · exact absurd h (by simp)
      · rename_i hpc; cases h; exact .rollDone _ _ q hq hpc
      · rename_i k hpc
        split at h
        · rename_i e he
          split at h
          · rename_i hm
            split at h
            · rename_i hp; cases h
              exact .rollUnlock _ _ q k e hq hpc he hm (quiet_of_nil hp e)
            · exact absurd h (by simp)
          · rename_i hm; cases h
            exact .rollSkip _ _ q k hq hpc (fun e' he' => by
              rw [he] at he'; cases he'; exact hm)
        · rename_i hne; cases h
          exact .rollSkip _ _ q k hq hpc (fun e' he' => absurd he' (hne e'))
      · rename_i hpc
        split at h
        · rename_i hall; cases h
          refine .mutex _ _ q hq hpc (fun q' hq' => ?_)
          have := List.all_eq_true.1 hall q' hq'
          simpa using this
        · exact absurd h (by simp)
      · rename_i i hpc
        split at h
        · rename_i he; cases h; exact .slowSkip _ _ q i hq hpc he
        · rename_i e he
          split at h
          · rename_i c ht; cases h; exact .slowTry _ _ q i e c hq hpc he ht
          · rename_i ht; cases h; exact .slowAlloc _ _ q i e hq hpc he ht
        · split at h
          · rename_i hl; cases h; subst hl; exact .slowEnd _ _ q hq hpc
          · exact absurd h (by simp)
      · rename_i i hpc
        split at h
        · rename_i e he
          split at h
          · rename_i hp
            split at h
            · rename_i hl; cases h; exact .enqGot _ _ q i e hq hpc he (quiet_of_nil hp e) hl
            · rename_i hl; cases h
              exact .enqWait _ _ q i e hq hpc he (quiet_of_nil hp e) (by simpa using hl)
          · exact absurd h (by simp)
        · exact absurd h (by simp)
      · rename_i i hpc; cases h; exact .slowGot _ _ q i hq hpc
      · rename_i hpc
        split at h
        · rename_i h0; cases h; exact .finalOwned _ _ q hq hpc h0
        · rename_i h0; cases h; exact .finalWait _ _ q hq hpc h0
      · rename_i hpc; cases h; exact .errDone _ _ q hq hpc
      · rename_i k hpc
        split at h
        · rename_i he; cases h; exact .errSkip _ _ q k hq hpc he
        · rename_i e he
          split at h
          · rename_i hp
            split at h
            · rename_i hm; cases h; exact .errUnlock _ _ q k e hq hpc he hm (quiet_of_nil hp e)
            · rename_i hm; cases h; exact .errRemove _ _ q k e hq hpc he hm (quiet_of_nil hp e)
          · exact absurd h (by simp)
        · exact absurd h (by simp)
      · rename_i hpc; cases h; exact .unlockStart _ _ q hq hpc
      · rename_i k hpc
        split at h
        · rename_i he; cases h
          refine .unlockSkip _ _ q k hq hpc (lt_of_some he) (fun e' he' => ?_)
          rw [he] at he'; exact absurd he' (by simp)
        · rename_i e he
          split at h
          · rename_i hm
            split at h
            · rename_i hp; cases h
              exact .unlockDo _ _ q k e hq hpc he hm (quiet_of_nil hp e)
            · exact absurd h (by simp)
          · exact absurd h (by simp)
        · split at h
          · rename_i hl; cases h; subst hl; exact .unlockDone _ _ q hq hpc
          · exact absurd h (by simp)
      · exact absurd h (by simp)
    · exact absurd h (by simp)

/-- A whole schedule. -/
def execs (B : Nat → Nat) (nm : Bool) : State → List Act → Option State
  | s, [] => some s
  | s, a :: as => match exec B nm s a with
    | some s' => execs B nm s' as
    | none => none

theorem execs_sound {B : Nat → Nat} {nomem : List (Option Nat) → Prop} {nm : Bool}
    (hn : nm = true → ∀ es, nomem es)
    {n : Nat} (as : List Act) (s s' : State) (hr : Run B nomem n s)
    (h : execs B nm s as = some s') : Run B nomem n s' := by
  induction as generalizing s with
  | nil => cases h; exact hr
  | cons a as ih =>
    simp only [execs] at h
    split at h
    · rename_i s1 h1; exact ih s1 (hr.step (exec_sound hn h1)) h
    · exact absurd h (by simp)

/-- An execution that ends in a state satisfying a check. -/
theorem witness {B : Nat → Nat} {nomem : List (Option Nat) → Prop} {nm : Bool}
    (hn : nm = true → ∀ es, nomem es)
    (n : Nat) (as : List Act) (p : State → Bool)
    (h : (execs B nm (State.init n) as).any p = true) :
    ∃ s, Run B nomem n s ∧ p s = true := by
  cases hs : execs B nm (State.init n) as with
  | none => rw [hs] at h; exact absurd h (by simp)
  | some s =>
    rw [hs] at h
    exact ⟨s, execs_sound hn as _ s (.init rfl) hs, by simpa using h⟩

/-- Repeat an action. -/
def times (k : Nat) (a : Act) : List Act := List.replicate k a

/-- Bucket function of the witness: lines 0 and 1 share a bucket, line 2 does not. -/
def leakB (e : Nat) : Nat := if e = 2 then 1 else 0

/-- Schedule of the witness.  Request 0 owns line 0, request 1 owns line 1 and request 3 owns
line 2; request 2 queues for lines 0 and 1 and has no memory to queue for line 2.  Cleaning up
it drops the waiter of line 0 when visiting index 1; line 1 is granted meanwhile and never given
back. -/
def leakActs : List Act :=
  [.start 0 true false [some 0]] ++ times 2 (.go 0) ++
  [.start 1 true false [some 1]] ++ times 2 (.go 1) ++
  [.start 3 true false [some 2]] ++ times 2 (.go 3) ++
  [.start 2 true false [some 0, some 1, some 2]] ++
  times 4 (.go 2) ++ times 4 (.go 2) ++ [.nomem 2] ++
  times 2 (.go 2) ++
  times 2 (.go 1) ++ [.notify] ++ [.go 1] ++
  times 2 (.go 2) ++
  times 3 (.go 0) ++ times 3 (.go 3)

/-- Defect: after a failed allocation a line can stay locked although every request has
finished.  The next request for line 1 waits for ever. -/
theorem lock_leaked : ∃ (B : Nat → Nat) (n : Nat) (s : State), Run B (fun _ => True) n s ∧
    (∀ q ∈ s.reqs, q.pc = .idle) ∧ s.core.pend = [] ∧ s.core.access 1 = .wr := by
  obtain ⟨s, h1, h2⟩ := witness (B := leakB) (nomem := fun _ => True) 
    (nm := true) (fun _ _ => trivial) 4 leakActs
    (fun s => s.reqs.all (fun q => q.pc == .idle) && s.core.pend.isEmpty &&
      s.core.access 1 == .wr) (by decide +kernel)
  simp only [Bool.and_eq_true, List.all_eq_true, beq_iff_eq, List.isEmpty_iff] at h2
  exact ⟨leakB, 4, s, h1, h2.1.1, h2.1.2, h2.2⟩

/-- Two readers share line 0 while a writer and then a third reader wait for it. -/
def shareActs : List Act :=
  [.start 0 false false [some 5, some 0]] ++ times 3 (.go 0) ++
  [.start 1 false false [some 0]] ++ times 9 (.go 1) ++
  [.start 2 true false [some 0, none]] ++ times 9 (.go 2) ++
  [.start 3 false false [some 0]] ++ times 8 (.go 3)

/-- `exclusive`, `owners_share_reading_partial`, `no_bug`: three grants, two of them of one line. -/
example : ∃ s, Run id (fun _ => True) 4 s ∧
    (s.reqs.map (·.pc) == [.owned, .owned, .waiting, .waiting] && (granted s).length == 3 &&
      s.core.access 0 == .rd 2) = true :=
  witness (nm := true) (fun _ _ => trivial) 4 shareActs _ (by decide +kernel)

/-- `no_lost_wakeup`, `arrival_order`, `no_overtaking`, `readers_wait_for_writer_partial`:
the writer and the reader behind it wait while readers hold the line. -/
example : ∃ s, Run id (fun _ => False) 4 s ∧
    (s.core.wl.map (fun t => (t.entry, t.write, t.req)) == [(0, true, 2), (0, false, 3)] &&
      (granted s).any (fun t => t.entry == 0 && !t.write)) = true :=
  witness (nm := false) (fun h => absurd h (by simp)) 4 shareActs _ (by decide +kernel)

/-- `resumed_once_partial`, `no_deadlock_partial`, `busy_moves_partial`: the readers leave, the
writer is granted and resumed exactly once, the third reader still waits. -/
example : ∃ s, Run id (distinctBuckets id) 4 s ∧
    (s.reqs.map (fun q => (q.pc, q.resumed)) ==
      [(.idle, 1), (.idle, 1), (.owned, 1), (.waiting, 0)]) = true :=
  witness (nm := false) (fun h => absurd h (by simp)) 4
    (shareActs ++ times 4 (.go 0) ++ times 2 (.go 1) ++ [.notify, .go 1]) _ (by decide +kernel)

end Verif.Alock
