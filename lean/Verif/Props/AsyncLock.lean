import Verif.Model.AsyncLock

/-!
C08. Specification in terms of holders (granted requests), requests and completions:
mutual exclusion, arrival order, exactly one completion, nobody left waiting on a free lock.
-/

namespace Verif.AsyncLock

/-- Everybody who has been granted the lock and has not released it. -/
def holders (s : State) : List Waiter := s.active ++ s.fast ++ s.batches.flatten

/-- Readers / writers in a list. -/
def readers (l : List Waiter) : Nat := l.countP (fun w => !w.write)
def writers (l : List Waiter) : Nat := l.countP (fun w => w.write)

/-- At most one batch is non-empty. -/
def OneBatch (bs : List (List Waiter)) : Prop :=
  ∀ (i : Nat) x, bs[i]? = some x → x ≠ [] → ∀ (j : Nat) y, j ≠ i → bs[j]? = some y → y = []

theorem flatten_all_nil (bs : List (List Waiter)) (h : ∀ (j : Nat) y, bs[j]? = some y → y = []) :
    bs.flatten = [] := by
  rw [List.flatten_eq_nil_iff]
  intro y hy
  obtain ⟨j, hj⟩ := List.mem_iff_getElem?.1 hy
  exact h j y hj

theorem flatten_one (bs : List (List Waiter)) (i : Nat) (x : List Waiter) (hi : bs[i]? = some x)
    (h : ∀ (j : Nat) y, j ≠ i → bs[j]? = some y → y = []) : bs.flatten = x := by
  induction bs generalizing i with
  | nil => simp at hi
  | cons b bs ih =>
    cases i with
    | zero =>
      simp at hi; subst hi
      rw [List.flatten_cons, flatten_all_nil bs (fun j y hj => h (j + 1) y (by omega) (by simpa using hj))]
      simp
    | succ i =>
      simp at hi
      have hb : b = [] := h 0 b (by omega) (by simp)
      rw [List.flatten_cons, hb, List.nil_append]
      exact ih i hi (fun j y hj hy => h (j + 1) y (by omega) (by simpa using hy))

structure Inv (s : State) : Prop where
  rd : s.rd = readers (holders s)
  wr : s.wr = writers (holders s)
  excl : s.wr = 0 ∨ (s.wr = 1 ∧ s.rd = 0)
  freeEmpty : s.wr = 0 → s.rd = 0 → s.waiters = []
  headWrite : s.wr = 0 → ∀ w ws, s.waiters = w :: ws → w.write = true
  bug : s.bug = false
  order : s.queued = s.okWait ++ s.batches.flatten ++ s.failed ++ s.failing ++ s.waiters
  alive : s.dead = false → s.failed = [] ∧ s.failing = []
  deadW : s.dead = true → s.waiters = []
  req : ∀ w, s.requested.count w = s.queued.count w + s.fast.count w + s.okFast.count w
  fresh : ∀ w ∈ s.requested, w.id ∈ s.used
  nodup : (s.requested.map (·.id)).Nodup
  one : OneBatch s.batches

theorem readers_append (a b : List Waiter) : readers (a ++ b) = readers a + readers b := by
  simp [readers]
theorem writers_append (a b : List Waiter) : writers (a ++ b) = writers a + writers b := by
  simp [writers]

theorem readers_erase (l : List Waiter) (w : Waiter) (h : w ∈ l) :
    readers (l.erase w) + (if w.write then 0 else 1) = readers l := by
  have := (List.perm_cons_erase h).countP_eq (fun w : Waiter => !w.write)
  unfold readers
  rw [this, List.countP_cons]
  cases w.write <;> simp

theorem writers_erase (l : List Waiter) (w : Waiter) (h : w ∈ l) :
    writers (l.erase w) + (if w.write then 1 else 0) = writers l := by
  have := (List.perm_cons_erase h).countP_eq (fun w : Waiter => w.write)
  unfold writers
  rw [this, List.countP_cons]

theorem readers_flatten_set (bs : List (List Waiter)) (b : Nat) (w : Waiter) (ws : List Waiter)
    (h : bs[b]? = some (w :: ws)) :
    readers (bs.set b ws).flatten + (if w.write then 0 else 1) = readers bs.flatten ∧
    writers (bs.set b ws).flatten + (if w.write then 1 else 0) = writers bs.flatten := by
  induction bs generalizing b with
  | nil => simp at h
  | cons x bs ih =>
    cases b with
    | zero =>
      simp at h; subst h
      simp only [List.set_cons_zero, List.flatten_cons, List.cons_append, readers, writers,
        List.countP_cons]
      cases w.write <;> simp
    | succ b =>
      simp at h
      obtain ⟨h1, h2⟩ := ih b h
      simp only [List.set_cons_succ, List.flatten_cons, readers_append, writers_append]
      omega

theorem length_split (l : List Waiter) : readers l + writers l = l.length := by
  induction l with
  | nil => rfl
  | cons w l ih =>
    simp only [readers, writers, List.countP_cons, List.length_cons] at ih ⊢
    cases w.write <;> simp <;> omega

/-- What collecting does: it splits the waiters, keeps the counters right. -/
theorem collect_spec (ws : List Waiter) : ∀ rd wr,
    (collect rd wr ws).1 ++ (collect rd wr ws).2.1 = ws ∧
    (collect rd wr ws).2.2.1 = rd + readers (collect rd wr ws).1 ∧
    (wr = 0 → (collect rd wr ws).2.2.2 = writers (collect rd wr ws).1 ∧
      ((collect rd wr ws).2.2.2 = 0 ∨ ((collect rd wr ws).2.2.2 = 1 ∧ (collect rd wr ws).2.2.1 = 0)) ∧
      ((collect rd wr ws).2.2.2 = 0 → (collect rd wr ws).2.2.1 = 0 → (collect rd wr ws).2.1 = []) ∧
      ((collect rd wr ws).2.2.2 = 0 → ∀ x xs, (collect rd wr ws).2.1 = x :: xs → x.write = true)) := by
  induction ws with
  | nil => intro rd wr; simp [collect, readers, writers]; omega
  | cons w ws ih =>
    intro rd wr
    unfold collect
    cases hw : w.write with
    | false =>
      obtain ⟨h1, h2, h3⟩ := ih (rd + 1) wr
      refine ⟨?_, ?_, ?_⟩
      · simp [h1]
      · simp [readers, hw] at h2 ⊢; omega
      · intro h0
        obtain ⟨g1, g2, g3, g4⟩ := h3 h0
        refine ⟨?_, ?_, ?_, ?_⟩
        · simpa [writers, hw] using g1
        · simpa using g2
        · simpa using g3
        · simpa using g4
    | true =>
      by_cases h0 : rd = 0
      · subst h0; simp [readers, writers, hw]
      · simp [readers, writers, hw, h0]

/-- If collecting is possible at all (`release` is reached), earlier batches are done. -/
theorem release_inv (s : State)
    (hrd : s.rd = 0) (hwr : s.wr = 0) (hh : readers (holders s) = 0) (hw : writers (holders s) = 0)
    (hbug : s.bug = false)
    (order : s.queued = s.okWait ++ s.batches.flatten ++ s.failed ++ s.failing ++ s.waiters)
    (alive : s.dead = false → s.failed = [] ∧ s.failing = []) (hd : s.dead = false)
    (req : ∀ w, s.requested.count w = s.queued.count w + s.fast.count w + s.okFast.count w)
    (fresh : ∀ w ∈ s.requested, w.id ∈ s.used) (nodup : (s.requested.map (·.id)).Nodup) :
    Inv (release s) := by
  obtain ⟨h1, h2, h3⟩ := collect_spec s.waiters s.rd s.wr
  obtain ⟨g1, g2, g3, g4⟩ := h3 hwr
  obtain ⟨f1, f2⟩ := alive hd
  refine ⟨?_, ?_, g2, g3, g4, hbug, ?_, alive, by simp [release, hd], req, fresh, nodup, ?_⟩
  · simp only [release, holders, readers_append, List.flatten_append, List.flatten_cons,
      List.flatten_nil, List.append_nil] at hh ⊢
    omega
  · simp only [release, holders, writers_append, List.flatten_append, List.flatten_cons,
      List.flatten_nil, List.append_nil] at hw ⊢
    omega
  · simp only [release, order, f1, f2, List.append_nil, List.flatten_append, List.flatten_cons,
      List.flatten_nil, List.append_assoc]
    rw [h1]
  · have hnil : s.batches.flatten = [] := by
      simp only [holders, readers_append, writers_append] at hh hw
      rw [← List.length_eq_zero_iff, ← length_split]; omega
    rw [List.flatten_eq_nil_iff] at hnil
    have hk : ∀ (k : Nat) z, (s.batches ++ [(collect s.rd s.wr s.waiters).1])[k]? = some z →
        z ≠ [] → k = s.batches.length := by
      intro k z hk hz
      by_cases hlt : k < s.batches.length
      · rw [List.getElem?_append_left hlt] at hk
        exact absurd (hnil z (List.mem_of_getElem? hk)) hz
      · have := (List.getElem?_eq_some_iff.1 hk).1
        simp at this; omega
    intro i x hi hx j y hj hy
    by_cases hyn : y = []
    · exact hyn
    · exact absurd ((hk j y hy hyn).trans (hk i x hi hx).symm) hj

theorem free_spec (s : State) (h : Inv s) (b : Bool) (hf : free s b = true) :
    s.wr = 0 ∧ (b = true → s.rd = 0) ∧ s.waiters = [] := by
  unfold free at hf
  cases b with
  | true => simp at hf; exact ⟨hf.1, fun _ => hf.2, h.freeEmpty hf.1 hf.2⟩
  | false => simp at hf; exact ⟨hf.1, by simp, hf.2⟩

theorem inv_step (s t : State) (h : Inv s) (hst : Step s t) : Inv t := by
  have hrd := h.rd; have hwr := h.wr; have hex := h.excl
  cases hst with
  | lock w hd hu =>
    have hnod : ((s.requested ++ [w]).map (·.id)).Nodup := by
      rw [List.map_append, List.nodup_append]
      refine ⟨h.nodup, by simp, ?_⟩
      intro a ha b hb
      simp at hb; subst hb
      rintro rfl
      obtain ⟨y, hy, he⟩ := List.mem_map.1 ha
      exact hu (he ▸ h.fresh y hy)
    have hfr : ∀ x ∈ s.requested ++ [w], x.id ∈ w.id :: s.used := by
      intro x hx
      rcases List.mem_append.1 hx with hx | hx
      · exact List.mem_cons_of_mem _ (h.fresh x hx)
      · simp at hx; simp [hx]
    unfold lock
    split
    · rename_i hf
      obtain ⟨f1, f2, f3⟩ := free_spec s h w.write hf
      cases hw : w.write with
      | true =>
        have hrd0 := f2 hw
        refine ⟨?_, ?_, Or.inr ⟨rfl, ?_⟩, by simp [take], by simp [take], h.bug, h.order, h.alive, h.deadW, ?_, hfr, hnod, h.one⟩
        · simp [take, holders, readers_append] at hrd ⊢; simp [readers, hw] at hrd ⊢; omega
        · simp [take, holders, writers_append] at hwr ⊢; simp [writers, hw] at hwr ⊢; omega
        · simpa [take] using hrd0
        · intro x; have := h.req x
          simp [take, List.count_append] at this ⊢; omega
      | false =>
        refine ⟨?_, ?_, Or.inl ?_, ?_, ?_, h.bug, h.order, h.alive, h.deadW, ?_, hfr, hnod, h.one⟩
        · simp [take, holders, readers_append] at hrd ⊢; simp [readers, hw] at hrd ⊢; omega
        · simp [take, holders, writers_append] at hwr ⊢; simp [writers, hw] at hwr ⊢; omega
        · simpa [take] using f1
        · simp [take]
        · simp [take, f3]
        · intro x; have := h.req x
          simp [take, List.count_append] at this ⊢; omega
    · rename_i hf
      refine ⟨hrd, hwr, hex, ?_, ?_, h.bug, ?_, h.alive, by simp [hd], ?_, hfr, hnod, h.one⟩
      · intro h0 h1
        have := h.freeEmpty h0 h1
        exfalso
        have h0' : s.wr = 0 := h0
        have h1' : s.rd = 0 := h1
        unfold free at hf
        cases hw : w.write <;> simp [hw, h0', h1', this] at hf
      · intro h0 x xs hx
        cases hws : s.waiters with
        | nil =>
          simp [hws] at hx
          rw [← hx.1]
          cases hw : w.write with
          | true => rfl
          | false =>
            have h0' : s.wr = 0 := h0
            unfold free at hf; simp [hw, h0', hws] at hf
        | cons y ys =>
          simp [hws] at hx
          exact hx.1 ▸ h.headWrite h0 y ys hws
      · simp [h.order]
      · intro x; have := h.req x
        simp [List.count_append] at this ⊢; omega
  | tryLock w hd hu =>
    have hfr : ∀ x ∈ s.requested, x.id ∈ w.id :: s.used :=
      fun x hx => List.mem_cons_of_mem _ (h.fresh x hx)
    unfold tryLock
    split
    · rename_i hf
      obtain ⟨f1, f2, f3⟩ := free_spec s h w.write hf
      cases hw : w.write with
      | true =>
        have hrd0 := f2 hw
        refine ⟨?_, ?_, Or.inr ⟨rfl, ?_⟩, by simp [take], by simp [take], h.bug, h.order, h.alive, h.deadW, h.req, hfr, h.nodup, h.one⟩
        · simp [take, holders, readers_append] at hrd ⊢; simp [readers, hw] at hrd ⊢; omega
        · simp [take, holders, writers_append] at hwr ⊢; simp [writers, hw] at hwr ⊢; omega
        · simpa [take] using hrd0
      | false =>
        refine ⟨?_, ?_, Or.inl ?_, ?_, ?_, h.bug, h.order, h.alive, h.deadW, h.req, hfr, h.nodup, h.one⟩
        · simp [take, holders, readers_append] at hrd ⊢; simp [readers, hw] at hrd ⊢; omega
        · simp [take, holders, writers_append] at hwr ⊢; simp [writers, hw] at hwr ⊢; omega
        · simpa [take] using f1
        · simp [take]
        · simp [take, f3]
    · exact h
  | fastCb w hw =>
    have h1 := readers_erase s.fast w hw
    have h2 := writers_erase s.fast w hw
    refine ⟨?_, ?_, hex, h.freeEmpty, h.headWrite, h.bug, h.order, h.alive, h.deadW, ?_, h.fresh, h.nodup, h.one⟩
    · simp only [holders, readers_append] at hrd ⊢
      have : readers [w] = if w.write then 0 else 1 := by cases hh : w.write <;> simp [readers, hh]
      omega
    · simp only [holders, writers_append] at hwr ⊢
      have : writers [w] = if w.write then 1 else 0 := by cases hh : w.write <;> simp [writers, hh]
      omega
    · intro x
      have := h.req x
      have hc := (List.perm_cons_erase hw).count_eq x
      simp only [List.count_append, List.count_cons, List.count_nil] at this hc ⊢
      omega
  | complete b w ws hb =>
    obtain ⟨h1, h2⟩ := readers_flatten_set s.batches b w ws hb
    -- the granted waiters hold the lock, so there is only one non-empty batch
    refine ⟨?_, ?_, hex, h.freeEmpty, h.headWrite, h.bug, ?_, h.alive, h.deadW, h.req, h.fresh, h.nodup, ?_⟩
    · simp only [holders, readers_append] at hrd ⊢
      have : readers [w] = if w.write then 0 else 1 := by cases hh : w.write <;> simp [readers, hh]
      omega
    · simp only [holders, writers_append] at hwr ⊢
      have : writers [w] = if w.write then 1 else 0 := by cases hh : w.write <;> simp [writers, hh]
      omega
    · have e1 := flatten_one s.batches b _ hb (h.one b _ hb (by simp))
      have hlt : b < s.batches.length := (List.getElem?_eq_some_iff.1 hb).1
      have e2 := flatten_one (s.batches.set b ws) b ws (by simp [hlt]) (by
        intro j y hj hy
        rw [List.getElem?_set_ne (Ne.symm hj)] at hy
        exact h.one b _ hb (by simp) j y hj hy)
      simp only [e2]
      rw [h.order, e1]; simp
    · intro i x hi hx j y hj hy
      by_cases hjb : j = b
      · subst hjb
        rw [List.getElem?_set_ne (Ne.symm hj.symm)] at hi
        exact absurd (h.one j _ hb (by simp) i x (Ne.symm hj) hi) hx
      · rw [List.getElem?_set_ne (Ne.symm hjb)] at hy
        exact h.one b _ hb (by simp) j y hjb hy
  | unlock w hd hw hww =>
    have h1 := readers_erase s.active w hw
    have h2 := writers_erase s.active w hw
    simp only [hww, if_true] at h1 h2
    have hwr1 : s.wr = 1 ∧ s.rd = 0 := by
      rcases hex with h0 | h0
      · simp only [holders, writers_append] at hwr; omega
      · exact h0
    apply release_inv
    · exact hwr1.2
    · rfl
    · simp only [holders, readers_append] at hrd ⊢; omega
    · simp only [holders, writers_append] at hwr ⊢; omega
    · simp [h.bug, hwr1]
    · exact h.order
    · exact h.alive
    · exact hd
    · exact h.req
    · exact h.fresh
    · exact h.nodup
  | readUnlock w hd hw hww =>
    have h1 := readers_erase s.active w hw
    have h2 := writers_erase s.active w hw
    simp only [hww, Bool.false_eq_true, if_false] at h1 h2
    have hrd1 : 0 < s.rd := by simp only [holders, readers_append] at hrd; omega
    have hwr0 : s.wr = 0 := by rcases hex with h0 | h0 <;> omega
    have hb : (s.bug || s.rd == 0 || s.wr != 0) = false := by
      simp [h.bug, hwr0]; omega
    unfold readUnlock
    simp only [hb]
    split
    · rename_i hne
      refine ⟨?_, ?_, Or.inl hwr0, ?_, h.headWrite, rfl, h.order, h.alive, h.deadW, h.req, h.fresh, h.nodup, h.one⟩
      · simp only [holders, readers_append] at hrd ⊢; omega
      · simp only [holders, writers_append] at hwr ⊢; omega
      · intro _ h0; exact absurd h0 hne
    · rename_i he
      apply release_inv
      · simpa using he
      · exact hwr0
      · simp only [holders, readers_append] at hrd ⊢; omega
      · simp only [holders, writers_append] at hwr ⊢; omega
      · rfl
      · exact h.order
      · exact h.alive
      · exact hd
      · exact h.req
      · exact h.fresh
      · exact h.nodup
  | deinit hd =>
    obtain ⟨f1, f2⟩ := h.alive hd
    refine ⟨hrd, hwr, hex, by simp [deinit], by simp [deinit], h.bug, ?_, by simp [deinit], by simp [deinit], h.req, h.fresh, h.nodup, h.one⟩
    simp [deinit, h.order, f1, f2]
  | failCb w ws hf =>
    refine ⟨hrd, hwr, hex, h.freeEmpty, h.headWrite, h.bug, ?_, ?_, h.deadW, h.req, h.fresh, h.nodup, h.one⟩
    · simp [h.order, hf]
    · intro hd; have := h.alive hd; simp [hf] at this

theorem inv_reach (s : State) (h : Reach (· = init) Step s) : Inv s := by
  refine Reach.inv (P := Inv) (init := (· = init)) ?_ inv_step s h
  rintro _ rfl
  refine ⟨rfl, rfl, Or.inl rfl, by simp [init], by simp [init], rfl, rfl, by simp [init], by simp [init],
    by simp [init], by simp [init], by simp [init], ?_⟩
  intro i x hi; simp [init] at hi

/-- No assertion of the lock fails for callers that release what they hold. -/
theorem no_bug (s : State) (h : Reach (· = init) Step s) : s.bug = false := (inv_reach s h).bug

/-- C08 (exclusion): a writer holding the lock is the only holder. -/
theorem mutual_exclusion (s : State) (h : Reach (· = init) Step s) (w : Waiter)
    (hw : w ∈ holders s) (hww : w.write = true) : holders s = [w] := by
  have hi := inv_reach s h
  have hpos : 0 < writers (holders s) := List.countP_pos_iff.2 ⟨w, hw, hww⟩
  have hlen : (holders s).length = 1 := by
    have := length_split (holders s)
    have h1 := hi.rd; have h2 := hi.wr
    rcases hi.excl with h | h <;> omega
  obtain ⟨x, hx⟩ := List.length_eq_one_iff.1 hlen
  rw [hx] at hw ⊢
  simp at hw; rw [hw]

/-- C08 (nobody left waiting): if nobody holds the lock, nobody waits. -/
theorem free_no_waiters (s : State) (h : Reach (· = init) Step s) (hf : holders s = []) :
    s.waiters = [] := by
  have hi := inv_reach s h
  exact hi.freeEmpty (by rw [hi.wr, hf]; rfl) (by rw [hi.rd, hf]; rfl)

/-- C08 (readers not blocked by readers alone): while readers hold the lock, the first waiter is a
writer. -/
theorem readers_wait_only_for_writer (s : State) (h : Reach (· = init) Step s)
    (hr : ∀ w ∈ holders s, w.write = false) (w : Waiter) (ws : List Waiter)
    (hw : s.waiters = w :: ws) : w.write = true := by
  have hi := inv_reach s h
  refine hi.headWrite ?_ w ws hw
  rw [hi.wr]
  exact List.countP_eq_zero.2 (fun x hx => by simp [hr x hx])

/-- C08 (arrival order): the requests that had to wait are, in arrival order: those completed (in
completion order), those granted but not told yet, those failed, those about to be failed, those
still waiting. Requests fail only after deinit, and then nobody waits any more. -/
theorem arrival_order (s : State) (h : Reach (· = init) Step s) :
    s.queued = s.okWait ++ s.batches.flatten ++ (s.failed ++ s.failing) ++ s.waiters ∧
    (s.dead = false → s.failed ++ s.failing = []) ∧ (s.dead = true → s.waiters = []) := by
  have hi := inv_reach s h
  refine ⟨by rw [hi.order]; simp [List.append_assoc], ?_, hi.deadW⟩
  intro hd; obtain ⟨f1, f2⟩ := hi.alive hd; simp [f1, f2]

/-- C08 (exactly one completion): every request is in exactly one of: waiting, granted and about to
be told, completed (with success or failure); so it is completed at most once. -/
theorem completed_once (s : State) (h : Reach (· = init) Step s) (w : Waiter) :
    s.requested.count w =
      s.waiters.count w + s.batches.flatten.count w + s.fast.count w + s.failing.count w +
      (s.okWait.count w + s.okFast.count w + s.failed.count w) ∧
    s.requested.count w ≤ 1 := by
  have hi := inv_reach s h
  constructor
  · rw [hi.req w, hi.order]; simp only [List.count_append]; omega
  · have : s.requested.Nodup := by
      have := hi.nodup
      rw [List.nodup_iff_pairwise_ne, List.pairwise_map] at this
      rw [List.nodup_iff_pairwise_ne]
      exact this.imp fun h e => h (by rw [e])
    exact List.nodup_iff_count.1 this w

/-! Non-vacuity: writer holds, two readers and a writer wait; unlocking grants both readers. -/
example : ∃ s, Reach (· = init) Step s ∧ s.okWait = [⟨2, false⟩, ⟨3, false⟩] ∧
    s.waiters = [⟨4, true⟩] := by
  let r0 : Reach (· = init) Step init := .init rfl
  have r1 := r0.step (.lock _ ⟨1, true⟩ rfl (by simp [init]))
  have r2 := r1.step (.fastCb _ ⟨1, true⟩ (by decide))
  have r3 := r2.step (.lock _ ⟨2, false⟩ rfl (by decide))
  have r4 := r3.step (.lock _ ⟨3, false⟩ rfl (by decide))
  have r5 := r4.step (.lock _ ⟨4, true⟩ rfl (by decide))
  have r6 := r5.step (.unlock _ ⟨1, true⟩ rfl (by decide) rfl)
  have r7 := r6.step (.complete _ 0 ⟨2, false⟩ [⟨3, false⟩] rfl)
  have r8 := r7.step (.complete _ 0 ⟨3, false⟩ [] rfl)
  exact ⟨_, r8, rfl, rfl⟩

end Verif.AsyncLock
