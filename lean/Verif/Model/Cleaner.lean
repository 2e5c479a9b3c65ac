import Verif.Lemma.Common

/-!
Model of the cleaner: writing dirty cache lines back to the core volume.
Source: `/repo/src/utils/utils_cleaner.c`.

Three parts: splitting a cleaning order into requests (`populate`, `fire`), the sector ranges of
one line (`runs`, `ranges`), and the life of one request together with everything else that may
happen meanwhile (`Step`). A fourth, `Done.Step`, is the completion counting of the whole order.
-/

namespace Verif.Cleaner

/-! ### Splitting an order into requests -/

/-- One used entry of `req->map` as filled by `ocf_cleaner_populate_req`
(`/repo/src/utils/utils_cleaner.c:693-698`): which item of the order it came from (not stored in the
code, kept here to state coverage), the cache line, and the core and core line the cache line was
mapped to at that time. -/
structure Pick where
  item : Nat
  line : Nat
  core : Nat
  cl : Nat
deriving DecidableEq, Repr

/-- `ocf_cleaner_populate_req`, `/repo/src/utils/utils_cleaner.c:666-704`. `g i` is what
`attribs->getter` says about item `i` (`none` = skip) together with the mapping read by
`ocf_metadata_get_core_info`; `room` = `map_max - map_curr`, `last` = `last_core_id` (`none` =
`OCF_CORE_ID_INVALID`), `left` = `count - curr`. Result: the entries filled and the final `curr`.
Simplification: a mapping to the invalid core id itself does not occur (items are mapped lines). -/
def populate (g : Nat → Option (Nat × Nat × Nat)) :
    (left curr room : Nat) → (last : Option Nat) → List Pick × Nat
  | 0, curr, _, _ => ([], curr)
  | _ + 1, curr, 0, _ => ([], curr)
  | left + 1, curr, room + 1, last =>
    match g curr with
    | none => populate g left (curr + 1) (room + 1) last
    | some (line, core, cl) =>
      if last = none ∨ last = some core then
        let (ps, c) := populate g left (curr + 1) room (some core)
        (⟨curr, line, core, cl⟩ :: ps, c)
      else ([], curr)

/-- `_ocf_cleaner_get_req_max_count`, `/repo/src/utils/utils_cleaner.c:77-84`. -/
def maxCount (count : Nat) (lowMem : Bool) : Nat :=
  if lowMem = true ∨ count ≤ 4096 then min count 128 else 1024

/-- What the environment answers while one request is set up: does the allocation succeed, does the
second attempt with less memory succeed, is the line lock call free of errors, and the getter
(`/repo/src/utils/utils_cleaner.c:86-148`, `/repo/src/utils/utils_cleaner.c:640-657`). -/
structure Oracle where
  alloc : Bool
  alloc2 : Bool
  lockOk : Bool
  get : Nat → Option (Nat × Nat × Nat)

/-- `_ocf_cleaner_alloc_master_req` / `_ocf_cleaner_alloc_slave_req`: the capacity of the request
allocated, if any (`/repo/src/utils/utils_cleaner.c:86-119`,
`/repo/src/utils/utils_cleaner.c:121-148`). -/
def allocReq (o : Oracle) (max : Nat) : Option Nat :=
  if o.alloc then some max else if o.alloc2 then some (maxCount max true) else none

/-- The loop of `ocf_cleaner_fire` (`/repo/src/utils/utils_cleaner.c:750-768`), one oracle per round;
`fuel` bounds the number of rounds (each round consumes at least one item, see `fire`). Result:
requests fired, and whether `master->error` was set. The first round allocates the master instead of
a slave (`:731-748`): same steps, but on allocation failure the completion callback gets the error
directly; both are `true` here. -/
def fireLoop (o : Nat → Oracle) (count : Nat) :
    (fuel r curr max : Nat) → List (List Pick) × Bool
  | 0, _, _, _ => ([], false)
  | fuel + 1, r, curr, max =>
    if curr < count then
      let max := min max (count - curr)
      match allocReq (o r) max with
      | none => ([], true)
      | some room =>
        let (ps, curr') := populate (o r).get (count - curr) curr room none
        if ps = [] then ([], false)
        else if (o r).lockOk then
          let (rs, e) := fireLoop o count fuel (r + 1) curr' max
          (ps :: rs, e)
        else ([], true)
    else ([], false)

/-- `ocf_cleaner_fire`, `/repo/src/utils/utils_cleaner.c:709-772`. (For `count = 0` the code allocates
an empty master and completes it at once: no requests, no error.) -/
def fire (o : Nat → Oracle) (count : Nat) : List (List Pick) × Bool :=
  fireLoop o count count 0 0 (maxCount count false)

/-! ### Sector ranges of one line -/

/-- The loop of `_ocf_cleaner_core_submit_io`, `/repo/src/utils/utils_cleaner.c:467-486`: `left`
sectors to go, at sector `i`, `st` = `dirty_start` when `counting_dirty`. Emits ranges
`[begin, end)`. -/
def runs (d : Nat → Bool) : (left i : Nat) → (st : Option Nat) → List (Nat × Nat)
  | 0, _, none => []
  | 0, i, some b => [(b, i)]
  | left + 1, i, st =>
    if d i then runs d left (i + 1) (some (st.getD i))
    else match st with
      | none => runs d left (i + 1) none
      | some b => (b, i) :: runs d left (i + 1) none

/-- `metadata_test_valid`: all `S` sectors valid (`/repo/src/metadata/metadata_status.h:215-220`). -/
def allB (S : Nat) (v : Nat → Bool) : Bool := (List.range S).all v

/-- `metadata_test_dirty`: some sector dirty (`/repo/src/metadata/metadata_status.h:65-74`). -/
def anyB (S : Nat) (d : Nat → Bool) : Bool := (List.range S).any d

/-- `_ocf_cleaner_core_submit_io`, `/repo/src/utils/utils_cleaner.c:449-487`, with
`_ocf_cleaner_sector_is_dirty` (`/repo/src/utils/utils_cleaner.c:254-266`) inlined. -/
def ranges (S : Nat) (v d : Nat → Bool) : List (Nat × Nat) :=
  if allB S v ∧ anyB S d then [(0, S)] else runs (fun t => v t && d t) S 0 none

/-! ### One request and its surroundings -/

/-- Collision and status metadata of one cache line (`/repo/src/metadata/metadata_collision.h:26-35`,
`/repo/src/metadata/metadata_status.h:15-41`). -/
structure Line where
  core : Nat
  cl : Nat
  valid : Nat → Bool
  dirty : Nat → Bool

/-- The fields of `struct ocf_map_info` used by the cleaner (`/repo/src/ocf_request.h:72-103`) and the
part of the request's data buffer belonging to the entry: offset `line_size * hash` with `hash` the
index (`/repo/src/utils/utils_cleaner.c:435-436`, `/repo/src/utils/utils_cleaner.c:577`). -/
structure Entry where
  line : Nat
  core : Nat
  cl : Nat
  flush : Bool
  invalid : Bool
  buf : Nat → Int

/-- I/Os the request has outstanding: the read of entry `i` from the cache volume, the write of
sectors `[b, e)` of entry `i` to the core volume, the core volume flush
(`/repo/src/utils/utils_cleaner.c:554-592`, `/repo/src/utils/utils_cleaner.c:425-447`,
`/repo/src/utils/utils_cleaner.c:392-399`). -/
inductive Part
  | rd (i : Nat)
  | wr (i b e : Nat)
  | fl
deriving DecidableEq, Repr

/-- What this request did to the outside, in order. `wr c k t v`: sector `t` of core line `k` of core
`c` written with `v`; `fl c`: core flushed; `fail`: one of its I/Os failed; `cln l t c k v`: sector `t`
of cache line `l` marked clean at a moment when the line was mapped to core line `k` of core `c` and
the sector contained `v` (`/repo/src/utils/utils_cleaner.c:315-447`). -/
inductive Ev
  | wr (c k t : Nat) (v : Int)
  | fl (c : Nat)
  | fail
  | cln (l t c k : Nat) (v : Int)
deriving DecidableEq, Repr

/-- Which handler of `/repo/src/utils/utils_cleaner.c` the request is in: `wait` for the line locks
(628-657), `check i` (594-626), `read` (554-592), `submit i` and `write` (489-525, 401-423), `flush`
(392-399, 366-390), `update i` (315-364), `done` (268-278).
Not modelled: the metadata write and cache flush between `update` and `done` (280-313); they change
no bits. -/
inductive Phase
  | wait
  | check (i : Nat)
  | read
  | submit (i : Nat)
  | write
  | flush
  | update (i : Nat)
  | done
deriving DecidableEq, Repr

/-- State: metadata and cache contents of all lines, the request (`n` entries, all of core `core`),
its outstanding I/Os, the error field of the current forward token, the master's error, and the
history (`/repo/src/utils/utils_cleaner.c:161-175`, `/repo/src/ocf_request.h:187-321`). -/
structure State where
  lines : Nat → Line
  data : Nat → Nat → Int
  n : Nat
  core : Nat
  ent : Nat → Entry
  phase : Phase
  pend : List Part
  err : Bool
  merr : Bool
  log : List Ev

/-- The request (or, for orders with `lock_cacheline = false`, its caller) holds read locks on its
lines (`/repo/src/utils/utils_cleaner.c:230-252`). -/
def State.held (s : State) : Prop := s.phase ≠ .wait ∧ s.phase ≠ .done

/-- Replace entry `i` (an assignment to `req->map[i]`, `/repo/src/utils/utils_cleaner.c:614`). -/
def State.setEnt (s : State) (i : Nat) (e : Entry) : Nat → Entry :=
  fun j => if j = i then e else s.ent j

/-- `flush` flags that `_ocf_cleaner_check_map` computes for entry `i`,
`/repo/src/utils/utils_cleaner.c:601-615`. -/
def checkEnt (S : Nat) (s : State) (i : Nat) : Entry :=
  let e := s.ent i
  let l := s.lines e.line
  if l.core = e.core ∧ l.cl = e.cl ∧ anyB S l.dirty then { e with flush := true } else e

/-- The `if (error)` block shared by `_ocf_cleaner_cache_io_end`, `_ocf_cleaner_core_io_end` and
`_ocf_cleaner_flush_core_end` (`/repo/src/utils/utils_cleaner.c:534-544`,
`/repo/src/utils/utils_cleaner.c:408-419`, `/repo/src/utils/utils_cleaner.c:373-383`). -/
def failAll (s : State) : Nat → Entry :=
  fun i => { s.ent i with invalid := (s.ent i).invalid || (s.err && (s.ent i).flush) }

/-- End of a forward phase: apply the error block, re-initialise the token. `_ocf_cleaner_set_error`
is `/repo/src/utils/utils_cleaner.c:161-175`. -/
def State.next (s : State) (p : Phase) (parts : List Part) : State :=
  { s with ent := failAll s, merr := s.merr || s.err, err := false, phase := p, pend := parts }

/-- Reads submitted by `_ocf_cleaner_fire_cache`, `/repo/src/utils/utils_cleaner.c:566-588`. -/
def readParts (s : State) : List Part :=
  ((List.range s.n).filter (fun i => (s.ent i).flush)).map .rd

/-- Writes submitted by `_ocf_cleaner_fire_core` for entry `i`,
`/repo/src/utils/utils_cleaner.c:501-521`. -/
def writeParts (S : Nat) (s : State) (i : Nat) : List Part :=
  if (s.ent i).flush ∧ ¬ (s.ent i).invalid then
    (ranges S (s.lines (s.ent i).line).valid (s.lines (s.ent i).line).dirty).map
      (fun r => .wr i r.1 r.2)
  else []

/-- History of one successful core write, `/repo/src/utils/utils_cleaner.c:433-446`: sectors
`[b, e)` at the address of the entry's core line get the bytes at the same place of its buffer. -/
def wrEvs (s : State) (i b e : Nat) : List Ev :=
  (List.range' b (e - b)).map (fun t => .wr s.core (s.ent i).cl t ((s.ent i).buf t))

/-- `_ocf_cleaner_update_metadata` for entry `i`: does it call `set_cache_line_clean`?
(`/repo/src/utils/utils_cleaner.c:327-341`). -/
def cleans (S : Nat) (s : State) (i : Nat) : Prop :=
  (s.ent i).flush = true ∧ (s.ent i).invalid = false ∧ anyB S (s.lines (s.ent i).line).dirty = true

instance (S : Nat) (s : State) (i : Nat) : Decidable (cleans S s i) := by
  unfold cleans; infer_instance

/-- Sectors that `set_cache_line_clean(cache, 0, end_sector, ...)` changes
(`/repo/src/utils/utils_cleaner.c:347-348`, `/repo/src/utils/utils_cache_line.c:92-132`), as
history. -/
def clnEvs (S : Nat) (s : State) (l : Nat) : List Ev :=
  ((List.range S).filter (s.lines l).dirty).map
    (fun t => .cln l t (s.lines l).core (s.lines l).cl (s.data l t))

/-- Line metadata after all `S` dirty bits of line `l` were cleared
(`/repo/src/utils/utils_cache_line.c:103-104`). -/
def cleared (S : Nat) (s : State) (l : Nat) : Nat → Line :=
  fun m => if m = l then { s.lines l with dirty := fun t => if t < S then false else (s.lines l).dirty t }
    else s.lines m

/-- Everything that can happen. `racy` says whether two I/Os of a request may complete at the same
time on different threads so that the error of one is lost (`lost`; the update of the token's error
field is not atomic, `/repo/src/ocf_request.c:668-679`, see `Verif.Forward.error_lost`).

`env`: other requests, cleaners and management: arbitrary changes of metadata and contents of lines
this request does not hold; of held lines only dirty bits may go away (another cleaner), since
everything else needs the write lock (`/repo/src/concurrency/ocf_cache_line_concurrency.c:181-191`).
A sector that is dirty is valid (property C03). -/
inductive Step (S : Nat) (racy : Bool) : State → State → Prop
  | env (s : State) (L : Nat → Line) (D : Nat → Nat → Int) :
      (∀ l t, (L l).dirty t = true → (L l).valid t = true) →
      (s.held → ∀ i < s.n, ∀ l, l = (s.ent i).line →
        D l = s.data l ∧ (L l).core = (s.lines l).core ∧ (L l).cl = (s.lines l).cl ∧
        (L l).valid = (s.lines l).valid ∧
        ∀ t, (L l).dirty t = true → (s.lines l).dirty t = true) →
      Step S racy s { s with lines := L, data := D }
  | lock (s : State) : s.phase = .wait → Step S racy s { s with phase := .check 0 }
  | chk (s : State) (i : Nat) : s.phase = .check i → i < s.n →
      Step S racy s { s with ent := s.setEnt i (checkEnt S s i), phase := .check (i + 1) }
  | nothing (s : State) : s.phase = .check s.n → readParts s = [] →
      Step S racy s { s with phase := .done }
  | fireCache (s : State) : s.phase = .check s.n → readParts s ≠ [] →
      Step S racy s { s with phase := .read, pend := readParts s, err := false }
  | rdOk (s : State) (i : Nat) : s.phase = .read → .rd i ∈ s.pend →
      Step S racy s { s with
        ent := s.setEnt i { s.ent i with buf := s.data (s.ent i).line }
        pend := s.pend.erase (.rd i) }
  | fail (s : State) (p : Part) : p ∈ s.pend →
      Step S racy s { s with pend := s.pend.erase p, err := true, log := s.log ++ [.fail] }
  | lost (s : State) (p q : Part) : racy = true → p ∈ s.pend → q ∈ s.pend → p ≠ q →
      Step S racy s { s with pend := s.pend.erase p, log := s.log ++ [.fail] }
  | rdEnd (s : State) : s.phase = .read → s.pend = [] → Step S racy s (s.next (.submit 0) [])
  | sub (s : State) (i : Nat) : s.phase = .submit i → i < s.n →
      Step S racy s { s with phase := .submit (i + 1), pend := s.pend ++ writeParts S s i }
  | subEnd (s : State) : s.phase = .submit s.n → Step S racy s { s with phase := .write }
  | wrOk (s : State) (i b e : Nat) : .wr i b e ∈ s.pend →
      Step S racy s { s with pend := s.pend.erase (.wr i b e), log := s.log ++ wrEvs s i b e }
  | wrEnd (s : State) : s.phase = .write → s.pend = [] → Step S racy s (s.next .flush [.fl])
  | flOk (s : State) : .fl ∈ s.pend →
      Step S racy s { s with pend := s.pend.erase .fl, log := s.log ++ [.fl s.core] }
  | flEnd (s : State) : s.phase = .flush → s.pend = [] → Step S racy s (s.next (.update 0) [])
  | upd (s : State) (i : Nat) : s.phase = .update i → i < s.n → cleans S s i →
      Step S racy s { s with
        lines := cleared S s (s.ent i).line
        log := s.log ++ clnEvs S s (s.ent i).line
        phase := .update (i + 1) }
  | updSkip (s : State) (i : Nat) : s.phase = .update i → i < s.n → ¬ cleans S s i →
      Step S racy s { s with phase := .update (i + 1) }
  | finish (s : State) : s.phase = .update s.n → Step S racy s { s with phase := .done }

/-- A request just set up by `ocf_cleaner_populate_req` (`/repo/src/utils/utils_cleaner.c:666-704`):
all entries of one core, flags clear (`/repo/src/ocf_request.c:118-166` allocates zeroed maps). -/
def Start (s : State) : Prop :=
  s.phase = .wait ∧ s.pend = [] ∧ s.err = false ∧ s.merr = false ∧ s.log = [] ∧
  (∀ i < s.n, (s.ent i).core = s.core ∧ (s.ent i).flush = false ∧ (s.ent i).invalid = false) ∧
  ∀ l t, (s.lines l).dirty t = true → (s.lines l).valid t = true

/-! ### Completion of the whole order -/

namespace Done

/-- One request: not fired, waiting for its locks, running, finished
(`/repo/src/utils/utils_cleaner.c:628-657`, `/repo/src/utils/utils_cleaner.c:268-278`). -/
inductive Rq
  | idle
  | waiting
  | running
  | finished
deriving DecidableEq, Repr

/-- The thread in `ocf_cleaner_fire`: about to lock request `k`, between the lock call and the
increment of `master_remaining` (`acq` = lock acquired at once), or past the final
`_ocf_cleaner_complete_req` (`/repo/src/utils/utils_cleaner.c:640-646`,
`/repo/src/utils/utils_cleaner.c:770-772`). -/
inductive Main
  | fire (k : Nat)
  | inc (k : Nat) (acq : Bool)
  | ended
deriving DecidableEq, Repr

/-- `master_remaining`, the thread, the requests and how often the caller's completion function was
called (`/repo/src/utils/utils_cleaner.c:177-219`). -/
structure State where
  remaining : Int
  main : Main
  rq : Nat → Rq
  completions : Nat

/-- `_ocf_cleaner_alloc_master_req` sets the counter to 1 (`/repo/src/utils/utils_cleaner.c:111`). -/
def init : State := ⟨1, .fire 0, fun _ => .idle, 0⟩

/-- Assign the state of request `k` (bookkeeping for `/repo/src/utils/utils_cleaner.c:628-657`). -/
def State.setRq (s : State) (k : Nat) (r : Rq) : Nat → Rq := fun j => if j = k then r else s.rq j

/-- `_ocf_cleaner_complete_req`, `/repo/src/utils/utils_cleaner.c:188-219`: the counter after, and the
number of completions after. -/
def State.dec (s : State) : State :=
  { s with remaining := s.remaining - 1
           completions := if s.remaining - 1 = 0 then s.completions + 1 else s.completions }

/-- Steps of `ocf_cleaner_fire` / `_ocf_cleaner_do_fire` and of the requests. `late = true`: a request
whose lock was granted to it after the lock call can run, and finish, before the firing thread
increments the counter (`/repo/src/utils/utils_cleaner.c:640-643`; `_ocf_cleaner_on_resume`, 221-225,
pushes it to a queue served by another thread). `late = false`: it runs only after the increment.
`stop` is the end of the loop for any reason (771). Simplification: the use of freed memory that
follows a premature completion is not modelled. -/
inductive Step (late : Bool) : State → State → Prop
  | lockAcq (s : State) (k : Nat) : s.main = .fire k → Step late s { s with main := .inc k true }
  | lockWait (s : State) (k : Nat) : s.main = .fire k →
      Step late s { s with main := .inc k false, rq := s.setRq k .waiting }
  | inc (s : State) (k : Nat) (a : Bool) : s.main = .inc k a →
      Step late s { s with main := .fire (k + 1), remaining := s.remaining + 1,
                           rq := if a then s.setRq k .running else s.rq }
  | resume (s : State) (k : Nat) : s.rq k = .waiting → (late = true ∨ s.main ≠ .inc k false) →
      Step late s { s with rq := s.setRq k .running }
  | finish (s : State) (k : Nat) : s.rq k = .running →
      Step late s { s.dec with rq := s.setRq k .finished }
  | stop (s : State) (k : Nat) : s.main = .fire k → Step late s { s.dec with main := .ended }

end Done

end Verif.Cleaner
