/-!
# Cache line lock (`ocf_alock`)

Model of `/repo/src/utils/utils_alock.c` and of its cache line instance
`/repo/src/concurrency/ocf_cache_line_concurrency.c`.

Granularity.  Every fast try-lock is one atomic step (it is one compare-and-exchange in C).
Every section under a wait list spinlock is one atomic step on the access word and the wait
list; the notifications such a section performs (`ocf_alock_entry_locked` of the woken
requests, still under the spinlock) are separate later steps, and no other section on the
same bucket can start before they are done.  A section may be taken as atomic with respect
to the lock-free try-locks because those only act on an idle access word, and a section
leaves the word non-idle until its very last store.

Not modelled: overflow of the 32-bit reader count, allocation failures at init, the
`alock->waiting` statistic, requests that already hold remapped lines when they start
waiting (their lines are locked by one-line try-lock requests of their own).
-/

namespace Verif.Alock

/-- Value of `access[entry]`: `rd 0` is `OCF_CACHE_LINE_ACCESS_IDLE`, `rd n` is `n` readers,
`wr` is `OCF_CACHE_LINE_ACCESS_WR`.  `/repo/src/utils/utils_alock.c:35-36`. -/
inductive Acc where
  | rd (n : Nat)
  | wr
  deriving DecidableEq, Repr

/-- One line asked for by a request: the fields of `struct ocf_alock_waiter`
(`/repo/src/utils/utils_alock.c:45-52`).  The same record identifies the line once granted. -/
structure Tok where
  entry : Nat
  write : Bool
  req : Nat
  idx : Nat
  deriving DecidableEq, Repr

/-- Shared data of the lock (`/repo/src/utils/utils_alock.c:54-72`): access words and wait lists.
The per-bucket lists are kept as one list `wl` in order of insertion; the order within each
bucket is the same.  `pend` are waiters taken off the list whose request has not been
notified yet.  `held` are lines marked locked (`alock_status` of the requests).
`arr` and `woken` are histories (all waiters ever queued, all waiters ever woken).
`bug` is an `ENV_BUG_ON` of the access word helpers. -/
structure Core where
  access : Nat → Acc
  wl : List Tok
  pend : List Tok
  held : List Tok
  arr : List Tok
  woken : List Tok
  bug : Bool

/-- Store to one access word (`alock->access[entry]`, `/repo/src/utils/utils_alock.c:60-72`). -/
def upd (f : Nat → Acc) (e : Nat) (a : Acc) : Nat → Acc :=
  fun x => if x = e then a else f x

/-- `ocf_alock_trylock_entry_wr` and `ocf_alock_trylock_entry_rd_idle`:
compare-and-exchange from idle.  `/repo/src/utils/utils_alock.c:267-285`. -/
def tryIdle (c : Core) (t : Tok) : Option Core :=
  if c.access t.entry = .rd 0 then
    some { c with
      access := upd c.access t.entry (if t.write then .wr else .rd 1)
      held := c.held ++ [t] }
  else none

/-- `ocf_alock_waitlist_add`.  `/repo/src/utils/utils_alock.c:242-249`. -/
def enqueue (c : Core) (t : Tok) : Core :=
  { c with wl := c.wl ++ [t], arr := c.arr ++ [t] }

/-- Section of `ocf_alock_lock_one_wr` under the spinlock.
`/repo/src/utils/utils_alock.c:399-419`.  The result says whether the line was locked. -/
def lockSectionWr (c : Core) (t : Tok) : Core × Bool :=
  match tryIdle c t with
  | some c' => (c', true)
  | none => (enqueue c t, false)

/-- Section of `ocf_alock_lock_one_rd` under the spinlock: a reader may join other readers
only when nobody waits for the line.  `/repo/src/utils/utils_alock.c:457-481`. -/
def lockSectionRd (c : Core) (t : Tok) : Core × Bool :=
  if c.wl.all (fun w => w.entry != t.entry) then
    match c.access t.entry with
    | .rd n => ({ c with access := upd c.access t.entry (.rd (n + 1))
                         held := c.held ++ [t] }, true)
    | .wr => (enqueue c t, false)
  else (enqueue c t, false)

/-- `ocf_alock_lock_one_wr` / `ocf_alock_lock_one_rd` chosen by the direction of the request
(`/repo/src/concurrency/ocf_cache_line_concurrency.c:116-128`). -/
def lockSection (c : Core) (t : Tok) : Core × Bool :=
  if t.write then lockSectionWr c t else lockSectionRd c t

/-- One attempt to hand the line to a waiter: the helpers `wr2wr`, `wr2rd`, `rd2wr`, `rd2rd`
(`/repo/src/utils/utils_alock.c:316-364`) for the first waiter and the ordinary try-locks
(`:267-293`) for the following ones.  The second component is their `ENV_BUG`. -/
def wakeOne (wasWr exchanged : Bool) (a : Acc) (write : Bool) : Option Acc × Bool :=
  match exchanged, wasWr, write with
  | true, true, true => (some a, a != .wr)
  | true, true, false => (some (.rd 1), a != .wr)
  | true, false, true =>
    (if a = .rd 1 then some .wr else none, a == .wr || a == .rd 0)
  | true, false, false => (some a, a == .wr || a == .rd 0)
  | false, _, true => (if a = .rd 0 then some .wr else none, false)
  | false, _, false =>
    (match a with
      | .rd n => some (.rd (n + 1))
      | .wr => none, false)

/-- Result of the waking loop below (`/repo/src/utils/utils_alock.c:518-551`). -/
structure Wake where
  acc : Acc
  exchanged : Bool
  rest : List Tok
  woken : List Tok
  bug : Bool

/-- Loop over the wait list in `ocf_alock_unlock_one_rd_common` and
`ocf_alock_unlock_one_wr_common`.  `/repo/src/utils/utils_alock.c:518-551` and `:605-638`. -/
def wakeLoop (e : Nat) (wasWr : Bool) : Acc → Bool → List Tok → Wake
  | a, x, [] => ⟨a, x, [], [], false⟩
  | a, x, w :: ws =>
    if w.entry ≠ e then
      let r := wakeLoop e wasWr a x ws
      { r with rest := w :: r.rest }
    else
      let o := wakeOne wasWr x a w.write
      match o.1 with
      | some a' =>
        let r := wakeLoop e wasWr a' false ws
        { r with woken := w :: r.woken, bug := o.2 || r.bug }
      | none => ⟨a, x, w :: ws, [], o.2⟩

/-- `ocf_alock_unlock_entry_rd` and `ocf_alock_unlock_entry_wr`
(`/repo/src/utils/utils_alock.c:295-314`) with their `ENV_BUG`. -/
def unlockEntry (wasWr : Bool) (a : Acc) : Acc × Bool :=
  if wasWr then (.rd 0, a != .wr)
  else match a with
    | .rd (n + 1) => (.rd n, false)
    | .rd 0 => (.rd 0, true)
    | .wr => (.wr, true)

/-- `ocf_alock_unlock_one_rd_common` / `ocf_alock_unlock_one_wr_common` for the line of a
granted token (`/repo/src/utils/utils_alock.c:498-559`, `:585-646`), together with clearing the
`alock_status` bit that follows in every caller
(`/repo/src/concurrency/ocf_cache_line_concurrency.c:80-88`, `:202-208`, `:221-227`). -/
def unlockSection (c : Core) (t : Tok) : Core :=
  let r := wakeLoop t.entry t.write (c.access t.entry) true c.wl
  let u := if r.exchanged then unlockEntry t.write r.acc else (r.acc, false)
  { c with
    access := upd c.access t.entry u.1
    wl := r.rest
    pend := c.pend ++ r.woken
    woken := c.woken ++ r.woken
    held := c.held.erase t
    bug := c.bug || r.bug || u.2 }

/-- Part of `ocf_alock_waitlist_remove_entry` for an index not marked locked: the first waiter
of the *bucket* that belongs to the request is dropped, whatever entry it waits for.
`/repo/src/utils/utils_alock.c:683-692`.  `B` is `_WAITERS_LIST_ITEM` (`:43`). -/
def removeWaiter (B : Nat → Nat) (c : Core) (b r : Nat) : Core :=
  { c with wl := c.wl.eraseP (fun w => B w.entry == b && w.req == r) }

/-- Where the thread of a request is inside `ocf_alock_lock_rd/wr`
(`/repo/src/utils/utils_alock.c:702-781`), the fast and slow callbacks
(`/repo/src/concurrency/ocf_cache_line_concurrency.c:36-143`) and `ocf_req_unlock_rd/wr`
(`:193-229`).  Numbers are loop counters; `roll k` and `err k` still have the indices below
`k` to visit. -/
inductive PC where
  | idle
  | fast (i : Nat)
  | roll (k : Nat)
  | mutexWait
  | slow (i : Nat)
  | enq (i : Nat)
  | got (i : Nat)
  | err (k : Nat)
  | final
  | waiting
  | owned
  | unlock (k : Nat)
  deriving DecidableEq, Repr

/-- Program points inside `alock->lock` (`/repo/src/utils/utils_alock.c:714-736`, `:754-776`). -/
def PC.inMutex : PC → Bool
  | .slow _ | .enq _ | .got _ | .err _ | .final => true
  | _ => false

/-- A request.  `entries[i]` is `none` when `ocf_cl_lock_line_needs_lock` is false
(`/repo/src/concurrency/ocf_cache_line_concurrency.c:13-21`).  `tryOnly` requests stand for
`ocf_cache_line_try_lock_rd/wr` (`:158-185`), which give up instead of waiting.
`remaining` is `lock_remaining`.  `resumed` counts how many times the present acquisition was
reported (return of `OCF_LOCK_ACQUIRED` or call of `cmpl`).  `ticket` is the order of passing
the mutex (history only). -/
structure Req where
  write : Bool
  tryOnly : Bool
  entries : List (Option Nat)
  remaining : Int
  pc : PC
  resumed : Nat
  ticket : Nat
  deriving DecidableEq, Repr

/-- The lock and all requests.  `bug` is an `ENV_BUG_ON` of the request level code or a
completion call on a request that is not waiting.  `/repo/src/utils/utils_alock.c:59-72`. -/
structure State where
  core : Core
  reqs : List Req
  clock : Nat
  bug : Bool

/-- A fresh lock with `n` requests that do nothing.  `/repo/src/utils/utils_alock.c:94-154`. -/
def State.init (n : Nat) : State :=
  { core := ⟨fun _ => .rd 0, [], [], [], [], [], false⟩
    reqs := List.replicate n ⟨false, false, [], 0, .idle, 0, 0⟩
    clock := 0
    bug := false }

/-- The token of index `i` of request `r`, as filled in `/repo/src/utils/utils_alock.c:407-412`. -/
def Req.tok (q : Req) (r e i : Nat) : Tok := ⟨e, q.write, r, i⟩

/-- Store back a request (fields of `struct ocf_request` written in
`/repo/src/utils/utils_alock.c:702-781`). -/
def State.put (s : State) (c : Core) (r : Nat) (q : Req) : State :=
  { s with core := c, reqs := s.reqs.set r q }

/-- No thread is inside the wait list spinlock of the bucket of `e`: the notifications of the
previous section are over.  `ocf_alock_waitlist_lock`,
`/repo/src/utils/utils_alock.c:251-265`. -/
def quiet (B : Nat → Nat) (c : Core) (e : Nat) : Prop :=
  ∀ t ∈ c.pend, B t.entry ≠ B e

/-- Nobody is inside `alock->lock` (`/repo/src/utils/utils_alock.c:714`). -/
def mutexFree (s : State) : Prop := ∀ q ∈ s.reqs, q.pc.inMutex = false

/-- The lines of a request are different (the map of a request resolves different core lines,
`/repo/src/engine/engine_common.c:211-249`). -/
def distinctLines (es : List (Option Nat)) : Prop :=
  ∀ (i j e : Nat), es[i]? = some (some e) → es[j]? = some (some e) → i = j

/-- The lines of a request fall into different wait list buckets
(`_WAITERS_LIST_ITEM`, `/repo/src/utils/utils_alock.c:43`). -/
def distinctBuckets (B : Nat → Nat) (es : List (Option Nat)) : Prop :=
  ∀ (i j e f : Nat), es[i]? = some (some e) → es[j]? = some (some f) → B e = B f → i = j

/-- Notification of a woken request: `ocf_alock_mark_index_locked` and
`ocf_alock_entry_locked`.  `/repo/src/utils/utils_alock.c:366-376`, `:540-548`, `:627-635`. -/
def notifyReq (q : Req) : Req × Bool :=
  if q.remaining - 1 = 0 then
    ({ q with remaining := q.remaining - 1, pc := .owned, resumed := q.resumed + 1 },
      q.pc != .waiting)
  else ({ q with remaining := q.remaining - 1 }, false)

/-- The woken line is marked locked (`ocf_alock_mark_index_locked`,
`/repo/src/utils/utils_alock.c:544`, `:631`). -/
def notifyCore (c : Core) (t : Tok) : Core :=
  { c with pend := c.pend.erase t, held := c.held ++ [t] }

/-- Steps of the threads.  `nomem` says for which requests the allocation of a waiter may
fail (`/repo/src/utils/utils_alock.c:395-397`). -/
inductive Step (B : Nat → Nat) (nomem : List (Option Nat) → Prop) : State → State → Prop where
  /-- Entry of `ocf_alock_lock_rd/wr` or of a one-line try-lock.
  `/repo/src/utils/utils_alock.c:708-711`, `:749-751`. -/
  | start (s : State) (r : Nat) (q : Req) (w to : Bool) (es : List (Option Nat)) :
      s.reqs[r]? = some q → q.pc = .idle → distinctLines es →
      Step B nomem s { s.put s.core r { q with write := w, tryOnly := to, entries := es
                                               pc := .fast 0, resumed := 0 } with
        bug := s.bug || q.remaining != 0 }
  /-- `/repo/src/concurrency/ocf_cache_line_concurrency.c:44-47`. -/
  | fastSkip (s : State) (r : Nat) (q : Req) (i : Nat) :
      s.reqs[r]? = some q → q.pc = .fast i → q.entries[i]? = some none →
      Step B nomem s (s.put s.core r { q with pc := .fast (i + 1) })
  /-- `/repo/src/concurrency/ocf_cache_line_concurrency.c:52-55`, `:61-64`. -/
  | fastOk (s : State) (r : Nat) (q : Req) (i e : Nat) (c : Core) :
      s.reqs[r]? = some q → q.pc = .fast i → q.entries[i]? = some (some e) →
      tryIdle s.core (q.tok r e i) = some c →
      Step B nomem s (s.put c r { q with pc := .fast (i + 1) })
  /-- `/repo/src/concurrency/ocf_cache_line_concurrency.c:56-60`, `:65-69`. -/
  | fastFail (s : State) (r : Nat) (q : Req) (i e : Nat) :
      s.reqs[r]? = some q → q.pc = .fast i → q.entries[i]? = some (some e) →
      tryIdle s.core (q.tok r e i) = none →
      Step B nomem s (s.put s.core r { q with pc := .roll (i + 1) })
  /-- All lines locked, `OCF_LOCK_ACQUIRED` returned.
  `/repo/src/concurrency/ocf_cache_line_concurrency.c:94`, `/repo/src/utils/utils_alock.c:713`, `:740`. -/
  | fastDone (s : State) (r : Nat) (q : Req) :
      s.reqs[r]? = some q → q.pc = .fast q.entries.length →
      Step B nomem s (s.put s.core r { q with pc := .owned, resumed := q.resumed + 1 })
  /-- Roll back, index not locked.
  `/repo/src/concurrency/ocf_cache_line_concurrency.c:76-82`. -/
  | rollSkip (s : State) (r : Nat) (q : Req) (k : Nat) :
      s.reqs[r]? = some q → q.pc = .roll (k + 1) →
      (∀ e, q.entries[k]? = some (some e) → q.tok r e k ∉ s.core.held) →
      Step B nomem s (s.put s.core r { q with pc := .roll k })
  /-- Roll back, index locked.
  `/repo/src/concurrency/ocf_cache_line_concurrency.c:82-90`. -/
  | rollUnlock (s : State) (r : Nat) (q : Req) (k e : Nat) :
      s.reqs[r]? = some q → q.pc = .roll (k + 1) → q.entries[k]? = some (some e) →
      q.tok r e k ∈ s.core.held → quiet B s.core e →
      Step B nomem s (s.put (unlockSection s.core (q.tok r e k)) r { q with pc := .roll k })
  /-- End of the fast callback: wait for the mutex, or give up in a one-line try-lock.
  `/repo/src/utils/utils_alock.c:713-714`, `:753-754`. -/
  | rollDone (s : State) (r : Nat) (q : Req) :
      s.reqs[r]? = some q → q.pc = .roll 0 →
      Step B nomem s (s.put s.core r
        { q with pc := if q.tryOnly then .idle else .mutexWait })
  /-- Mutex taken, `lock_remaining` set.  `/repo/src/utils/utils_alock.c:714-723`, `:754-763`. -/
  | mutex (s : State) (r : Nat) (q : Req) :
      s.reqs[r]? = some q → q.pc = .mutexWait → mutexFree s →
      Step B nomem s { s.put s.core r
          { q with pc := .slow 0, remaining := q.entries.length + 1, ticket := s.clock } with
        clock := s.clock + 1
        bug := s.bug || q.remaining != 0 }
  /-- `/repo/src/concurrency/ocf_cache_line_concurrency.c:106-110`. -/
  | slowSkip (s : State) (r : Nat) (q : Req) (i : Nat) :
      s.reqs[r]? = some q → q.pc = .slow i → q.entries[i]? = some none →
      Step B nomem s (s.put s.core r
        { q with pc := .slow (i + 1), remaining := q.remaining - 1 })
  /-- First try succeeds.  `/repo/src/utils/utils_alock.c:388-393`, `:445-450`. -/
  | slowTry (s : State) (r : Nat) (q : Req) (i e : Nat) (c : Core) :
      s.reqs[r]? = some q → q.pc = .slow i → q.entries[i]? = some (some e) →
      tryIdle s.core (q.tok r e i) = some c →
      Step B nomem s (s.put c r { q with pc := .got i })
  /-- First try fails, waiter allocated.  `/repo/src/utils/utils_alock.c:395-399`, `:452-457`. -/
  | slowAlloc (s : State) (r : Nat) (q : Req) (i e : Nat) :
      s.reqs[r]? = some q → q.pc = .slow i → q.entries[i]? = some (some e) →
      tryIdle s.core (q.tok r e i) = none →
      Step B nomem s (s.put s.core r { q with pc := .enq i })
  /-- First try fails, waiter not allocated.  `/repo/src/utils/utils_alock.c:395-397`, `:452-454`,
  `/repo/src/concurrency/ocf_cache_line_concurrency.c:117-120`. -/
  | slowNoMem (s : State) (r : Nat) (q : Req) (i e : Nat) :
      s.reqs[r]? = some q → q.pc = .slow i → q.entries[i]? = some (some e) →
      tryIdle s.core (q.tok r e i) = none → nomem q.entries →
      Step B nomem s (s.put s.core r { q with pc := .err (i + 1) })
  /-- Section under the spinlock, line locked.  `/repo/src/utils/utils_alock.c:399-423`. -/
  | enqGot (s : State) (r : Nat) (q : Req) (i e : Nat) :
      s.reqs[r]? = some q → q.pc = .enq i → q.entries[i]? = some (some e) →
      quiet B s.core e → (lockSection s.core (q.tok r e i)).2 = true →
      Step B nomem s (s.put (lockSection s.core (q.tok r e i)).1 r { q with pc := .got i })
  /-- Section under the spinlock, waiter queued.  `/repo/src/utils/utils_alock.c:399-419`. -/
  | enqWait (s : State) (r : Nat) (q : Req) (i e : Nat) :
      s.reqs[r]? = some q → q.pc = .enq i → q.entries[i]? = some (some e) →
      quiet B s.core e → (lockSection s.core (q.tok r e i)).2 = false →
      Step B nomem s (s.put (lockSection s.core (q.tok r e i)).1 r
        { q with pc := .slow (i + 1) })
  /-- `ocf_alock_entry_locked` of the locking thread itself: it must not be the one that
  resumes.  `/repo/src/utils/utils_alock.c:390-391`, `:421-425`. -/
  | slowGot (s : State) (r : Nat) (q : Req) (i : Nat) :
      s.reqs[r]? = some q → q.pc = .got i →
      Step B nomem s { s.put s.core r
          { q with pc := .slow (i + 1), remaining := q.remaining - 1 } with
        bug := s.bug || q.remaining - 1 == 0 }
  /-- `/repo/src/concurrency/ocf_cache_line_concurrency.c:131`. -/
  | slowEnd (s : State) (r : Nat) (q : Req) :
      s.reqs[r]? = some q → q.pc = .slow q.entries.length →
      Step B nomem s (s.put s.core r { q with pc := .final })
  /-- Last decrement, everything was locked.  `/repo/src/utils/utils_alock.c:726-730`. -/
  | finalOwned (s : State) (r : Nat) (q : Req) :
      s.reqs[r]? = some q → q.pc = .final → q.remaining - 1 = 0 →
      Step B nomem s (s.put s.core r
        { q with pc := .owned, remaining := q.remaining - 1, resumed := q.resumed + 1 })
  /-- Last decrement, something is still missing.  `/repo/src/utils/utils_alock.c:726-730`. -/
  | finalWait (s : State) (r : Nat) (q : Req) :
      s.reqs[r]? = some q → q.pc = .final → q.remaining - 1 ≠ 0 →
      Step B nomem s (s.put s.core r
        { q with pc := .waiting, remaining := q.remaining - 1 })
  /-- `/repo/src/concurrency/ocf_cache_line_concurrency.c:134-136`. -/
  | errSkip (s : State) (r : Nat) (q : Req) (k : Nat) :
      s.reqs[r]? = some q → q.pc = .err (k + 1) → q.entries[k]? = some none →
      Step B nomem s (s.put s.core r { q with pc := .err k })
  /-- `ocf_alock_waitlist_remove_entry`, index locked in the meantime.
  `/repo/src/utils/utils_alock.c:677-682`. -/
  | errUnlock (s : State) (r : Nat) (q : Req) (k e : Nat) :
      s.reqs[r]? = some q → q.pc = .err (k + 1) → q.entries[k]? = some (some e) →
      q.tok r e k ∈ s.core.held → quiet B s.core e →
      Step B nomem s (s.put (unlockSection s.core (q.tok r e k)) r { q with pc := .err k })
  /-- `ocf_alock_waitlist_remove_entry`, index not locked.
  `/repo/src/utils/utils_alock.c:683-692`. -/
  | errRemove (s : State) (r : Nat) (q : Req) (k e : Nat) :
      s.reqs[r]? = some q → q.pc = .err (k + 1) → q.entries[k]? = some (some e) →
      q.tok r e k ∉ s.core.held → quiet B s.core e →
      Step B nomem s (s.put (removeWaiter B s.core (B e) r) r { q with pc := .err k })
  /-- Error returned.  `/repo/src/utils/utils_alock.c:731-735`. -/
  | errDone (s : State) (r : Nat) (q : Req) :
      s.reqs[r]? = some q → q.pc = .err 0 →
      Step B nomem s (s.put s.core r { q with pc := .idle, remaining := 0 })
  /-- Notification of a woken waiter.  `/repo/src/utils/utils_alock.c:544-546`, `:631-633`. -/
  | notify (s : State) (t : Tok) (q : Req) :
      t ∈ s.core.pend → s.reqs[t.req]? = some q →
      Step B nomem s { s.put (notifyCore s.core t) t.req (notifyReq q).1 with
        bug := s.bug || (notifyReq q).2 }
  /-- The owner calls `ocf_req_unlock_rd/wr`.
  `/repo/src/concurrency/ocf_cache_line_concurrency.c:193-197`, `:212-216`. -/
  | unlockStart (s : State) (r : Nat) (q : Req) :
      s.reqs[r]? = some q → q.pc = .owned →
      Step B nomem s (s.put s.core r { q with pc := .unlock 0 })
  /-- `/repo/src/concurrency/ocf_cache_line_concurrency.c:199-203`, `:218-222`. -/
  | unlockSkip (s : State) (r : Nat) (q : Req) (k : Nat) :
      s.reqs[r]? = some q → q.pc = .unlock k → k < q.entries.length →
      (∀ e, q.entries[k]? = some (some e) → q.tok r e k ∉ s.core.held) →
      Step B nomem s (s.put s.core r { q with pc := .unlock (k + 1) })
  /-- `/repo/src/concurrency/ocf_cache_line_concurrency.c:202-208`, `:221-227`. -/
  | unlockDo (s : State) (r : Nat) (q : Req) (k e : Nat) :
      s.reqs[r]? = some q → q.pc = .unlock k → q.entries[k]? = some (some e) →
      q.tok r e k ∈ s.core.held → quiet B s.core e →
      Step B nomem s (s.put (unlockSection s.core (q.tok r e k)) r
        { q with pc := .unlock (k + 1) })
  /-- `/repo/src/concurrency/ocf_cache_line_concurrency.c:209-210`, `:228-229`. -/
  | unlockDone (s : State) (r : Nat) (q : Req) :
      s.reqs[r]? = some q → q.pc = .unlock q.entries.length →
      Step B nomem s (s.put s.core r { q with pc := .idle })

end Verif.Alock
