import Verif.Model.RbTree

/-!
# Sequential cutoff

Model of `/repo/src/ocf_seq_cutoff.c` on top of the model of the ordered tree.  The streams of one
set (`struct ocf_seq_cutoff`) are numbered; the number is also the number of the tree node inside
the stream.  Functions return `none` when the code would follow a null or wild pointer or when a
loop of the tree does not end.

Simplifications:
* the code between taking and releasing one read-write lock is one step; steps of different
  requests interleave;
* the three fields compared by `ocf_seq_cutoff_stream_cmp` are encoded as one number, so that the
  tree compares numbers;
* a field `used` (whether the stream was ever taken for a request) and the history of the requests
  are added; the code does not look at them.
-/

namespace Verif.SeqCutoff

open Verif.RbTree (Heap upd)

/-- `struct ocf_seq_cutoff_stream`, `/repo/src/ocf_seq_cutoff.h:13-21`; `used` is added. -/
structure Stream where
  last : Nat
  bytes : Nat
  rw : Bool
  valid : Bool
  count : Nat
  used : Bool

/-- The order of `ocf_seq_cutoff_stream_cmp`, `/repo/src/ocf_seq_cutoff.c:27-54`: first `valid`,
then `rw`, then `last` (64 bits). -/
def enc (valid rw : Bool) (last : Nat) : Nat :=
  ((if valid then 2 else 0) + (if rw then 1 else 0)) * 2 ^ 64 + last

/-- `struct ocf_seq_cutoff`, `/repo/src/ocf_seq_cutoff.h:23-29`; `lru` from the first to the last
entry. -/
structure Base where
  heap : Heap
  streams : Nat → Stream
  lru : List Nat
  n : Nat

/-- 64-bit arithmetic of `last` and `bytes`, `/repo/src/ocf_seq_cutoff.h:14-15`. -/
def w64 (x : Nat) : Nat := x % 2 ^ 64

/-- Bound for the loops in the tree; the code has none,
`/repo/src/utils/utils_rbtree.c:460`. -/
def fuel (b : Base) : Nat := b.n + 3

/-- Assignments to the fields of a stream, as in `/repo/src/ocf_seq_cutoff.c:263-267`; the tree
sees another key at once. -/
def put (b : Base) (s : Nat) (v : Stream) : Base :=
  { b with
    streams := upd b.streams s v
    heap := { b.heap with key := upd b.heap.key s (enc v.valid v.rw v.last) } }

/-- `ocf_rb_tree_insert` of a stream, `/repo/src/ocf_seq_cutoff.c:268`. -/
def treeInsert (b : Base) (s : Nat) : Option Base :=
  (RbTree.insert (fuel b) b.heap s).map fun h => { b with heap := h }

/-- `ocf_rb_tree_remove` of a stream, `/repo/src/ocf_seq_cutoff.c:262`. -/
def treeRemove (b : Base) (s : Nat) : Option Base :=
  (RbTree.remove (fuel b) b.heap s).map fun h => { b with heap := h }

/-- `ocf_seq_cutoff_stream_list_find`, `/repo/src/ocf_seq_cutoff.c:56-73`.  `list_for_each_entry`
begins after the node it is given, which is the one in the tree. -/
def listFind (b : Base) (_node : Nat) (others : List Nat) : Option Nat :=
  others.foldl (fun m s =>
    match m with
    | none => some s
    | some x => if (b.streams s).bytes > (b.streams x).bytes then some s else some x) none

/-- `ocf_rb_tree_find` for a valid stream that ends at `addr`,
`/repo/src/ocf_seq_cutoff.c:166-173`. -/
def lookup (b : Base) (rw : Bool) (addr : Nat) : Option (Option Nat) :=
  RbTree.find (fuel b) b.heap (listFind b) (enc true rw addr)

/-- The streams before the first request, `/repo/src/ocf_seq_cutoff.c:86-90`. -/
def stream0 (i : Nat) : Stream :=
  { last := 4096 * i, bytes := 0, rw := false, valid := false, count := 0, used := false }

/-- The loop of `ocf_seq_cutoff_base_init`, `/repo/src/ocf_seq_cutoff.c:85-93`. -/
def insertAll (b : Base) : List Nat → Option Base
  | [] => some b
  | s :: ss => (treeInsert b s).bind fun b => insertAll b ss

/-- `ocf_seq_cutoff_base_init`, `/repo/src/ocf_seq_cutoff.c:75-94`; `h` is the memory as it was.
The fields of all streams are set before the first is inserted, which makes no difference. -/
def baseInit (h : Heap) (n : Nat) : Option Base :=
  insertAll
    { heap := { RbTree.init h with key := fun i => enc false false (4096 * i) }
      streams := stream0, lru := List.range n, n := n } (List.range n)

/-- `ocf_core_seq_cutoff_base_check`, `/repo/src/ocf_seq_cutoff.c:162-184`: the result and the
stream found. -/
def baseCheck (b : Base) (addr len : Nat) (rw : Bool) (threshold : Nat) :
    Option (Bool × Option Nat) :=
  match lookup b rw addr with
  | none => none
  | some none => some (false, none)
  | some (some s) => some (decide (w64 ((b.streams s).bytes + len) ≥ threshold), some s)

/-- `list_move_tail`, `/repo/src/ocf_seq_cutoff.c:254`. -/
def moveTail (l : List Nat) (s : Nat) : List Nat := l.erase s ++ [s]

/-- `list_move`, `/repo/src/ocf_seq_cutoff.c:295`. -/
def moveHead (l : List Nat) (s : Nat) : List Nat := s :: l.erase s

/-- The stream after a request that continues it, `/repo/src/ocf_seq_cutoff.c:247-249`; the count
has 16 bits. -/
def extend (v : Stream) (addr len : Nat) : Stream :=
  { v with last := w64 (addr + len), bytes := w64 (v.bytes + len), count := (v.count + 1) % 2 ^ 16 }

/-- The stream taken for a new request, `/repo/src/ocf_seq_cutoff.c:263-267`. -/
def fresh (addr len : Nat) (rw : Bool) : Stream :=
  { last := w64 (addr + len), bytes := len, rw := rw, valid := true, count := 1, used := true }

/-- `ocf_core_seq_cutoff_base_update`, `/repo/src/ocf_seq_cutoff.c:230-275`. -/
def baseUpdate (b : Base) (addr len : Nat) (rw : Bool) (ins : Bool) : Option (Base × Option Nat) :=
  match lookup b rw addr with
  | none => none
  | some (some s) =>
    match RbTree.canUpdate (fuel b) b.heap s (enc true rw (w64 (addr + len))) with
    | none => none
    | some can =>
      let b := put b s (extend (b.streams s) addr len)
      let b? := if can then some b else (treeRemove b s).bind fun b => treeInsert b s
      b?.map fun b => ({ b with lru := moveTail b.lru s }, some s)
  | some none =>
    if ins then
      match b.lru with
      | [] => none
      | s :: _ =>
        (treeRemove b s).bind fun b =>
          (treeInsert (put b s (fresh addr len rw)) s).map fun b =>
            ({ b with lru := moveTail b.lru s }, some s)
    else some (b, none)

/-- `ocf_core_seq_cutoff_base_promote`, `/repo/src/ocf_seq_cutoff.c:277-296`: the destination and
the source afterwards.  The source stream gets another key while it is in the tree. -/
def basePromote (dst src : Base) (s : Nat) : Option (Base × Base) :=
  match dst.lru with
  | [] => none
  | d :: _ =>
    (treeRemove dst d).bind fun dst =>
      (treeInsert (put dst d { src.streams s with valid := true }) d).map fun dst =>
        ({ dst with lru := moveTail dst.lru d },
         { put src s { src.streams s with valid := false } with lru := moveHead src.lru s })

/-- `ocf_seq_cutoff_policy`, `/repo/inc/ocf_def.h:189-204`. -/
inductive Policy
  | always
  | full
  | never
deriving DecidableEq

/-- The parameters of the core, `/repo/src/ocf_core_priv.h:43-52`. -/
structure Cfg where
  policy : Policy
  threshold : Nat
  promotionCount : Nat
  promoteOnThreshold : Bool

/-- What is read of a request, `/repo/src/ocf_seq_cutoff.c:212-214`; the core and the queue it goes
to. -/
structure Req where
  core : Nat
  queue : Nat
  addr : Nat
  len : Nat
  rw : Bool
deriving DecidableEq

/-- `ocf_seq_cutoff_is_on` for `lines` core lines of the request,
`/repo/src/ocf_seq_cutoff.c:17-25`. -/
def isOn (attached : Bool) (numFree lines : Nat) : Bool :=
  attached && decide (numFree ≤ 512 + lines)

/-- The policy part of `ocf_core_seq_cutoff_check`, `/repo/src/ocf_seq_cutoff.c:195-209`; `on` is
the result of `ocf_seq_cutoff_is_on`. -/
def policyOn (cfg : Cfg) (on : Bool) : Bool :=
  match cfg.policy with
  | .always => true
  | .full => on
  | .never => false

/-- `ocf_core_seq_cutoff_check`, `/repo/src/ocf_seq_cutoff.c:186-228`, for the streams of the queue
and of the core of the request: the result and `req->seq_cutoff_core`. -/
def check (cfg : Cfg) (on : Bool) (q c : Base) (r : Req) : Option (Bool × Bool) :=
  if !policyOn cfg on then some (false, false)
  else
    match baseCheck q r.addr r.len r.rw cfg.threshold with
    | none => none
    | some (res, some _) => some (res, false)
    | some (_, none) =>
      match baseCheck c r.addr r.len r.rw cfg.threshold with
      | none => none
      | some (res, st) => some (res, st.isSome)

/-- What a request that is in `ocf_core_seq_cutoff_update` does next: the update of the streams of
the core (`/repo/src/ocf_seq_cutoff.c:319-323`), of the queue (`/repo/src/ocf_seq_cutoff.c:329-332`), the
decision to promote (`/repo/src/ocf_seq_cutoff.c:334-338`), or the promotion
(`/repo/src/ocf_seq_cutoff.c:341-346`). -/
inductive Task
  | core (r : Req) (cfg : Cfg) (promote : Bool)
  | queue (r : Req) (cfg : Cfg) (promote : Bool)
  | look (r : Req) (cfg : Cfg) (promote : Bool) (s : Nat)
  | prom (r : Req) (s : Nat)

/-- The request of a task, `/repo/src/ocf_seq_cutoff.c:298`. -/
def Task.req : Task → Req
  | .core r _ _ => r
  | .queue r _ _ => r
  | .look r _ _ _ => r
  | .prom r _ => r

/-- The streams of all queues and cores, the requests that are in `ocf_core_seq_cutoff_update`,
and (added) the requests whose update was made, in order, and the queues from which streams were
promoted; `/repo/src/ocf_seq_cutoff.c:298-348`. -/
structure State where
  queue : Nat → Base
  core : Nat → Base
  tasks : List Task
  hist : List Req
  promoted : Nat → Bool

/-- The beginning of `ocf_core_seq_cutoff_update` when the policy is not `never`,
`/repo/src/ocf_seq_cutoff.c:309-318`; `flag` is `req->seq_cutoff_core`. -/
def start (r : Req) (cfg : Cfg) (flag : Bool) : Task :=
  let promote := (decide (r.len ≥ cfg.threshold) && cfg.promoteOnThreshold) ||
    decide (cfg.promotionCount = 1)
  if flag || promote then .core r cfg promote else .queue r cfg promote

/-- The section of `ocf_core_seq_cutoff_update` under the lock of the core,
`/repo/src/ocf_seq_cutoff.c:319-326`. -/
def runCore (st : State) (r : Req) (cfg : Cfg) (promote : Bool) : Option (State × Option Task) :=
  (baseUpdate (st.core r.core) r.addr r.len r.rw promote).map fun (b, o) =>
    match o with
    | some _ => ({ st with core := upd st.core r.core b, hist := st.hist ++ [r] }, none)
    | none => (st, some (.queue r cfg promote))

/-- The section under the lock of the queue, `/repo/src/ocf_seq_cutoff.c:329-332`. -/
def runQueue (st : State) (r : Req) (cfg : Cfg) (promote : Bool) : Option (State × Option Task) :=
  match baseUpdate (st.queue r.queue) r.addr r.len r.rw true with
  | none => none
  | some (_, none) => none
  | some (b, some s) =>
    some ({ st with queue := upd st.queue r.queue b, hist := st.hist ++ [r] },
      some (.look r cfg promote s))

/-- The decision to promote; the stream is read without a lock and may have been changed by then,
`/repo/src/ocf_seq_cutoff.c:334-340`. -/
def runLook (st : State) (r : Req) (cfg : Cfg) (promote : Bool) (s : Nat) :
    Option (State × Option Task) :=
  let v := (st.queue r.queue).streams s
  let promote := promote || (decide (v.bytes ≥ cfg.threshold) && cfg.promoteOnThreshold) ||
    decide (v.count ≥ cfg.promotionCount)
  some (st, if promote then some (.prom r s) else none)

/-- The promotion under both locks, `/repo/src/ocf_seq_cutoff.c:341-346`. -/
def runProm (st : State) (r : Req) (s : Nat) : Option (State × Option Task) :=
  (basePromote (st.core r.core) (st.queue r.queue) s).map fun (dst, src) =>
    ({ st with core := upd st.core r.core dst, queue := upd st.queue r.queue src,
               promoted := upd st.promoted r.queue true }, none)

/-- The next section of a request, `/repo/src/ocf_seq_cutoff.c:319-346`. -/
def exec (st : State) : Task → Option (State × Option Task)
  | .core r cfg promote => runCore st r cfg promote
  | .queue r cfg promote => runQueue st r cfg promote
  | .look r cfg promote s => runLook st r cfg promote s
  | .prom r s => runProm st r s

/-- The whole of `ocf_core_seq_cutoff_update` without interruption,
`/repo/src/ocf_seq_cutoff.c:298-348`; at most four sections. -/
def update (st : State) (r : Req) (cfg : Cfg) (flag : Bool) : Option State :=
  if cfg.policy = .never then some st
  else
    let go (x : Option (State × Option Task)) (k : State → Task → Option State) : Option State :=
      match x with
      | none => none
      | some (st, none) => some st
      | some (st, some t) => k st t
    go (exec st (start r cfg flag)) fun st t =>
      go (exec st t) fun st t => go (exec st t) fun st t => go (exec st t) fun _ _ => none

/-- The steps: a request begins its update (`/repo/src/ocf_core.c:308`; its range was checked to
be inside the core, `/repo/src/ocf_core.c:186-187`), a section of an update is executed, the streams of
a core or of a queue are initialised (`/repo/src/ocf_seq_cutoff.c:101-113`,
`/repo/src/ocf_seq_cutoff.c:121-131`), for a queue when no request uses it. -/
inductive Step (nq nc : Nat) : State → State → Prop
  | begin {st : State} (r : Req) (cfg : Cfg) (flag : Bool) :
      r.addr + r.len < 2 ^ 64 → cfg.policy ≠ .never →
      Step nq nc st { st with tasks := start r cfg flag :: st.tasks }
  | run {st st' : State} {i : Nat} {t : Task} {next : Option Task} :
      st.tasks[i]? = some t → exec st t = some (st', next) →
      Step nq nc st { st' with tasks := next.toList ++ st.tasks.eraseIdx i }
  | initCore {st : State} (c : Nat) (h : Heap) (b : Base) : baseInit h nc = some b →
      Step nq nc st { st with core := upd st.core c b }
  | initQueue {st : State} (q : Nat) (h : Heap) (b : Base) : baseInit h nq = some b →
      (∀ t ∈ st.tasks, t.req.queue ≠ q) →
      Step nq nc st { st with queue := upd st.queue q b, promoted := upd st.promoted q false }

/-- Before the first request, `/repo/src/ocf_seq_cutoff.c:101-131`. -/
def Init (nq nc : Nat) (st : State) : Prop :=
  (∀ q, ∃ h, baseInit h nq = some (st.queue q)) ∧ (∀ c, ∃ h, baseInit h nc = some (st.core c)) ∧
    st.tasks = [] ∧ st.hist = [] ∧ st.promoted = fun _ => false

end Verif.SeqCutoff
