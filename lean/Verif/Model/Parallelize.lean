import Verif.Lemma.Common

/-!
Model of sharded management jobs. Source: `/repo/src/utils/utils_parallelize.c` and the
handlers passed to it.
-/

namespace Verif.Parallelize

/-- Progress of one shard request: `idle` = not pushed to its queue yet, `queued`,
`handled e` = the handler returned `e` (`/repo/src/utils/utils_parallelize.c:49-50`),
`noted` = the error was recorded (`:52`), `done` = it returned from
`_ocf_parallelize_finish` (`:54`). -/
inductive Shard
  | idle
  | queued
  | handled (e : Int)
  | noted
  | done
deriving DecidableEq, Repr

/-- Shard still holding its share of `remaining` (`/repo/src/utils/utils_parallelize.c:95`). -/
def Shard.open : Shard → Bool
  | .done => false
  | _ => true

/-- `struct ocf_parallelize`, `/repo/src/utils/utils_parallelize.c:15-26`, plus the position of
the caller of `ocf_parallelize_run` in its loop and three histories: handler invocations
(shard ids), non-zero-or-zero codes recorded in order, arguments of `finish` calls. -/
structure State where
  remaining : Int
  error : Int
  shards : List Shard
  next : Nat
  runnerDone : Bool
  handled : List Nat
  codes : List Int
  finished : List Int
deriving DecidableEq, Repr

/-- `ocf_parallelize_create`, `/repo/src/utils/utils_parallelize.c:94-119`, for `n` shards, at
the start of `ocf_parallelize_run`. -/
def init (n : Nat) : State :=
  ⟨n + 1, 0, List.replicate n .idle, 0, false, [], [], []⟩

/-- `_ocf_parallelize_finish`, `/repo/src/utils/utils_parallelize.c:28-42`. -/
def finish (s : State) : State :=
  let r := s.remaining - 1
  { s with remaining := r, finished := if r = 0 then s.finished ++ [s.error] else s.finished }

/-- Atomic steps: `push`/`runnerEnd` are `ocf_parallelize_run`
(`/repo/src/utils/utils_parallelize.c:153-161`), the others `_ocf_parallelize_hndl`
(`:44-57`). That a queued request is run exactly once is C25. -/
inductive Step : State → State → Prop
  | push (s : State) : s.next < s.shards.length → s.runnerDone = false →
      Step s { s with shards := s.shards.set s.next .queued, next := s.next + 1 }
  | runnerEnd (s : State) : s.next = s.shards.length → s.runnerDone = false →
      Step s { finish s with runnerDone := true }
  | handle (s : State) (i : Nat) (e : Int) : s.shards[i]? = some .queued →
      Step s { s with shards := s.shards.set i (.handled e), handled := s.handled ++ [i] }
  | note (s : State) (i : Nat) (e : Int) : s.shards[i]? = some (.handled e) →
      Step s { s with shards := s.shards.set i .noted,
                      error := if s.error = 0 then e else s.error,
                      codes := s.codes ++ [e] }
  | done (s : State) (i : Nat) : s.shards[i]? = some .noted →
      Step s { finish s with shards := s.shards.set i .done }

/-- Items of shard `id` in handlers that stride: `cline = shard_id; cline < entries;
cline += shards_cnt` (`/repo/src/mngt/ocf_mngt_cache.c:591-595`). -/
def strideItems (entries shards id : Nat) : List Nat :=
  if shards = 0 then []   -- unreachable: `shards_cnt` is at least 1, utils_parallelize.c:74-75
  else if id < entries then
    (List.range ((entries - id + shards - 1) / shards)).map fun k => id + k * shards
  else []

/-- Items of shard `id` in handlers that take contiguous portions
(`/repo/src/cleaning/alru.c:474-483`, `/repo/src/cleaning/acp.c:330-334`,
`/repo/src/metadata/metadata.c:844-848,909-913`). Simplification: `portion * (shard_id + 1)`
does not wrap (it is a 32-bit product in `acp.c` and `metadata.c`). -/
def portionItems (entries shards id : Nat) : List Nat :=
  let portion := (entries + shards - 1) / shards
  let b := portion * id
  let e := min (portion * (id + 1)) entries
  List.range' b (e - b)

end Verif.Parallelize
