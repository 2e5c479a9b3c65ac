/-!
C56: the cleaning policy of a cache: its context, the calls into it, and its replacement at run time.

The threads are: I/O threads (which call the policy with the metadata lock taken for reading), runs of
the cleaner (which hold the management lock until they complete), one call from adding or removing a
core, and one management operation. Each access to the counter `cleaner.refcnt` is a step of its own.
-/

namespace Verif.PolicySwitch

/-- The cleaning policies. Only NOP has no context.
Source: /repo/src/cleaning/cleaning_ops.h:37-72. -/
inductive Pol
  | nop | alru | acp
  deriving DecidableEq, Repr

/-- Who calls the policy: an I/O request, a run of the cleaner, or the management operation that adds or
removes a core.
Source: /repo/src/cleaning/cleaning_ops.h:123-295. -/
inductive Kind
  | io | cl | mg
  deriving DecidableEq, Repr

/-- Place of a thread in a call of the policy. `lk`: before the call. `rd`: `freeze` was read as zero.
`inc`: the counter was incremented. `back`: `freeze` was found set on the second reading. `use p`: the
policy was read as `p` and its function is being called. `run p`: the cleaner's function has issued its
order and has not returned. `fin`: before the counter is decremented. `gone`: the thread has ended.
Source: /repo/src/cleaning/cleaning_ops.h:123-295, /repo/env/posix/ocf_env_refcnt.c:24-46. -/
inductive Pc
  | lk | rd | inc | back | use (p : Pol) | run (p : Pol) | fin | gone
  deriving DecidableEq, Repr

/-- A thread; `left` is the number of further calls into the policy it will make.
Source: /repo/src/cleaning/cleaning_ops.h:123-295. -/
structure Th where
  kind : Kind
  left : Nat
  pc : Pc
  deriving DecidableEq, Repr

/-- The management operation under way. `sw…`: `ocf_mngt_cache_cleaning_set_policy` from `o` to `n`.
`hook`: adding or removing a core, which calls the policy once. `at…`: attach. `ld…`: load. `dt…`: detach,
or stop when the flag is set.
Source: /repo/src/mngt/ocf_mngt_flush.c:961-1051, /repo/src/mngt/ocf_mngt_cache.c:2067-2119,
/repo/src/mngt/ocf_mngt_cache.c:3881-3898. -/
inductive Op
  | idle
  | swEx (o n : Pol) | swFz (o n : Pol) | swReg (o n : Pol) | swRegD (o n : Pol) | swWait (o n : Pol)
  | swDeinit (o n : Pol) | swInit (o n : Pol) | swPop (o n : Pol) | swFin (o n : Pol) (err : Bool)
  | hook
  | atInit | atPop | atLate
  | ldInit (clean : Bool) | ldPop | ldLate
  | dtWait (stop : Bool) | dtDeinit (stop : Bool)
  deriving DecidableEq, Repr

/-- What `ocf_mngt_cache_cleaning_set_policy` passes to its completion function.
Source: /repo/src/mngt/ocf_mngt_flush.c:1053-1096, /repo/src/mngt/ocf_mngt_flush.c:1028-1040. -/
inductive Out
  | same | disabled | nomem | done | failed
  deriving DecidableEq, Repr

/-- A record (kept for the statements only) of one completion: the policy before, the policy asked for,
the outcome, the policy at that moment, and whether a cache device was attached.
Source: /repo/src/mngt/ocf_mngt_flush.c:1053-1096. -/
structure Rep where
  old : Pol
  new : Pol
  out : Out
  now : Pol
  att : Bool
  deriving DecidableEq, Repr

/-- What may go wrong in an execution: `pop`: populating the structures of a policy may fail for lack of
memory; `late`: a load may fail after the cleaning policy was initialised; `det`: the policy may be
switched on a cache without a cache device.
Source: /repo/src/cleaning/alru.c:538-572, /repo/src/cleaning/acp.c:422-479,
/repo/src/mngt/ocf_mngt_cache.c:2096-2119, /repo/src/mngt/ocf_mngt_flush.c:1053-1096. -/
structure Env where
  pop : Bool
  late : Bool
  det : Bool
  deriving DecidableEq, Repr

/-- The state. `pol`: `cleaner.policy`; `ctx`: the object `cleaner.cleaning_policy_context` points to,
tagged with the policy that made it; `lost`: number of contexts that are allocated and no longer pointed
to; `rc`, `fz`, `cb`: the counter, the freeze count and the callback flag of `cleaner.refcnt`; `mdx`: the
metadata lock is taken exclusively by the operation; `lk`: the management lock is taken; `out`: the
cleaner has an order whose completion function has not run; `att`: a cache device is attached; `cd`:
`conf_meta->cleaner_disabled`; `crash`: an assertion failed or a pointer that is NULL or of another type
was followed; `refused`: a call into the policy was skipped because the counter was frozen; `stopped`:
the cache was stopped; `rep`: completions of switching.
Source: /repo/src/cleaning/cleaning_ops.h:37-72, /repo/src/ocf_cache_priv.h:155-164,
/repo/env/posix/ocf_env_refcnt.c:9-17. -/
structure St where
  pol : Pol := .alru
  ctx : Option Pol := none
  lost : Nat := 0
  rc : Nat := 0
  fz : Nat := 0
  cb : Bool := false
  mdx : Bool := false
  lk : Bool := false
  out : Option Pol := none
  att : Bool := false
  cd : Bool := false
  crash : Bool := false
  refused : Bool := false
  stopped : Bool := false
  op : Op := .idle
  ths : List Th := []
  rep : List Rep := []
  deriving DecidableEq, Repr

/-- A cache just started has no cache device, and the default policy.
Source: /repo/src/mngt/ocf_mngt_cache.c:1551-1568. -/
def init : St := {}

/-- A function of policy `p` may follow the context: it exists and was made by `p`. NOP follows none.
Source: /repo/src/cleaning/alru.c:574-584, /repo/src/cleaning/acp.c:154-157. -/
def fits (ctx : Option Pol) (p : Pol) : Bool := p == .nop || ctx == some p

/-- `env_refcnt_dec`: decrement; at zero with a callback registered, run it: the switch goes on. The
callback runs in the thread that decrements; here the operation goes on in a step of its own.
Source: /repo/env/posix/ocf_env_refcnt.c:24-31, /repo/src/mngt/ocf_mngt_flush.c:961-969. -/
def decr (s : St) : St :=
  if s.rc = 0 then { s with crash := true }
  else if s.rc = 1 && s.cb then
    { s with rc := 0, cb := false, op := match s.op with
        | .swRegD o n => .swDeinit o n
        | .swWait o n => .swDeinit o n
        | x => x }
  else { s with rc := s.rc - 1 }

/-- Replace thread `i`.
Source: /repo/src/cleaning/cleaning_ops.h:123-295. -/
def upd (s : St) (i : Nat) (t : Th) : St := { s with ths := s.ths.set i t }

/-- A call that found the counter frozen: an I/O thread skips it, the cleaner completes its run (and so
gives the management lock back), adding a core fails.
Source: /repo/src/cleaning/cleaning_ops.h:129-131, /repo/src/cleaning/cleaning_ops.h:278-281,
/repo/src/cleaning/cleaning.c:72-80. -/
def refuse (s : St) (i : Nat) (t : Th) : St :=
  match t.kind with
  | .io => { upd s i { t with pc := .lk } with refused := true }
  | .cl => { upd s i { t with pc := .gone } with refused := true, lk := false }
  | .mg => { upd s i { t with pc := .gone } with refused := true, lk := false, op := .idle }

/-- The end of a call: an I/O thread goes on, a run of the cleaner returns, the operation on a core ends.
Source: /repo/src/cleaning/cleaning_ops.h:141-144, /repo/src/cleaning/cleaning_ops.h:292-295. -/
def ret (s : St) (i : Nat) (t : Th) : St :=
  match t.kind with
  | .io => upd s i { t with pc := .lk }
  | .cl => upd s i { t with pc := .gone }
  | .mg => { upd s i { t with pc := .gone } with lk := false, op := .idle }

/-- The call itself. An I/O thread or the operation on a core uses the context and ends the call. The
cleaner (`c`): issues an order that completes later, or completes at once, which gives the management lock
back before the counter is decremented. NOP always completes at once. That ALRU holds the metadata lock
exclusively meanwhile (it only tries to take it) is left out.
Source: /repo/src/cleaning/cleaning_ops.h:283-294, /repo/src/cleaning/alru.c:891-957,
/repo/src/cleaning/acp.c:647-662, /repo/src/cleaning/acp.c:705-737, /repo/src/cleaning/nop.c:10-13,
/repo/src/cleaning/cleaning.c:72-80. -/
def call (s : St) (i : Nat) (t : Th) (p : Pol) (c : Bool) : St :=
  if fits s.ctx p then
    match t.kind with
    | .cl =>
      if c && p != .nop then { upd s i { t with pc := .run p } with out := some p }
      else { upd s i { t with pc := .fin } with lk := false }
    | _ => upd s i { t with pc := .fin }
  else { s with crash := true }

/-- One step of thread `i`; `c` is a choice of the cleaner.
Source: /repo/src/cleaning/cleaning_ops.h:123-295, /repo/env/posix/ocf_env_refcnt.c:24-46,
/repo/src/cleaning/cleaning.c:72-121. -/
def thStep (s : St) (i : Nat) (t : Th) (c : Bool) : Option St :=
  match t.pc with
  | .lk =>
    match t.left with
    | 0 => some (upd s i { t with pc := .gone })
    | n + 1 =>
      if s.fz = 0 then some (upd s i { t with left := n, pc := .rd })
      else some (refuse s i { t with left := n })
  | .rd => some { upd s i { t with pc := .inc } with rc := s.rc + 1 }
  | .inc =>
    if s.fz = 0 then some (upd s i { t with pc := .use s.pol }) else some (upd s i { t with pc := .back })
  | .back => some (refuse (decr s) i t)
  | .use p => some (call s i t p c)
  | .run p => some (if fits s.ctx p then upd s i { t with pc := .fin } else { s with crash := true })
  | .fin => some (ret (decr s) i t)
  | .gone => none

/-- `ocf_cleaning_deinitialize`: the function of the current policy frees the context.
Source: /repo/src/cleaning/cleaning_ops.h:109-121, /repo/src/cleaning/alru.c:574-584,
/repo/src/cleaning/acp.c:226-237. -/
def deinit (s : St) : St :=
  if s.pol = .nop then s
  else if s.ctx = some s.pol then { s with ctx := none } else { s with crash := true }

/-- `ocf_cleaning_initialize` that succeeds. ALRU uses `cache->device`, which is NULL without a cache
device (`dev`), and does not look whether there is a context; ACP asserts there is none. Its tables per
core are in `Acp`.
Source: /repo/src/cleaning/cleaning_ops.h:84-93, /repo/src/cleaning/alru.c:367-401,
/repo/src/cleaning/acp.c:249-300. -/
def initPol (s : St) (dev : Bool) (p : Pol) : St :=
  match p with
  | .nop => s
  | .alru =>
    if dev then { s with ctx := some .alru, lost := s.lost + (if s.ctx.isSome then 1 else 0) }
    else { s with crash := true }
  | .acp => if s.ctx.isSome then { s with crash := true } else { s with ctx := some .acp }

/-- No I/O thread is alive, so the metadata lock is free and so is `refcnt.metadata`.
Source: /repo/src/mngt/ocf_mngt_cache.c:3790-3798. -/
def noIo (s : St) : Bool := s.ths.all (fun t => t.kind != .io || t.pc == .gone)

/-- No run of the cleaner is alive.
Source: /repo/src/mngt/ocf_mngt_cache.c:2197-2203. -/
def noCl (s : St) : Bool := s.ths.all (fun t => t.kind != .cl || t.pc == .gone)

/-- One step of the management operation; `c` tells whether what it calls succeeds.

Switching: exclusive access to the metadata; freeze; register the callback; drop the reference of the
registration; (callback) free the context; initialise the new policy; populate; unfreeze, end exclusive
access and complete. Failure to initialise or populate sets NOP.

Attach: initialise (failure: undo the counter), populate (failure: undo the counter, nothing else), further
steps (failure: free the context). Load: initialise, populate after a dirty shutdown, further steps;
failure in any of these frees nothing. `noIo`, `noCl`: detach waits for the I/O in progress and for the
cleaner, whose stop function is trusted to return after the cleaner's thread has left the library.
Source: /repo/src/mngt/ocf_mngt_flush.c:961-1051, /repo/env/posix/ocf_env_refcnt.c:49-71,
/repo/src/mngt/ocf_mngt_cache.c:220-246, /repo/src/mngt/ocf_mngt_cache.c:727-761,
/repo/src/mngt/ocf_mngt_cache.c:1433-1474, /repo/src/mngt/ocf_mngt_cache.c:2003-2054,
/repo/src/mngt/ocf_mngt_cache.c:2096-2119, /repo/src/mngt/ocf_mngt_cache.c:2197-2214,
/repo/src/mngt/ocf_mngt_cache.c:3790-3898. -/
def opStep (e : Env) (s : St) (c : Bool) : Option St :=
  match s.op with
  | .idle => none
  | .hook => none
  | .swEx o n => if noIo s then some { s with op := .swFz o n, mdx := true } else none
  | .swFz o n => some { s with op := .swReg o n, fz := s.fz + 1 }
  | .swReg o n =>
    if s.fz = 0 || s.cb then some { s with crash := true }
    else some { s with op := .swRegD o n, rc := s.rc + 1, cb := true }
  | .swRegD o n => some (decr { s with op := .swWait o n })
  | .swWait _ _ => none
  | .swDeinit o n => some (deinit { s with op := .swInit o n })
  | .swInit o n =>
    if c || n == .nop then some (initPol { s with op := .swPop o n } s.att n)
    else some { s with op := .swFin o n true, pol := .nop }
  | .swPop o n =>
    if n == .nop then some { s with op := .swFin o n false, pol := n }
    else if c then
      if s.att then some { s with op := .swFin o n false, pol := n } else some { s with crash := true }
    else if e.pop then some { s with op := .swFin o n true, pol := .nop }
    else none
  | .swFin o n err =>
    if s.fz = 0 then some { s with crash := true }
    else some { s with op := .idle, fz := s.fz - 1, mdx := false, lk := false
                       rep := ⟨o, n, if err then .failed else .done, s.pol, s.att⟩ :: s.rep }
  | .atInit =>
    if c || s.pol == .nop then
      some (initPol { s with op := .atPop, rc := 0, fz := 0, cb := false } true s.pol)
    else some { s with op := .idle, lk := false, rc := 0, fz := 0, cb := false }
  | .atPop =>
    if c || s.pol == .nop then some { s with op := .atLate }
    else if e.pop then some { s with op := .idle, lk := false }
    else none
  | .atLate =>
    if c then some { s with op := .idle, lk := false, att := true }
    else some (deinit { s with op := .idle, lk := false })
  | .ldInit clean =>
    if c || s.pol == .nop then
      some (initPol { s with op := if clean then .ldLate else .ldPop, rc := 0, fz := 0, cb := false }
        true s.pol)
    else some { s with op := .idle, lk := false, rc := 0, fz := 0, cb := false }
  | .ldPop =>
    if c || s.pol == .nop then some { s with op := .ldLate }
    else if e.pop then some { s with op := .idle, lk := false }
    else none
  | .ldLate =>
    if c then some { s with op := .idle, lk := false, att := true }
    else if e.late then some { s with op := .idle, lk := false }
    else none
  | .dtWait stop => if noIo s then some { s with op := .dtDeinit stop } else none
  | .dtDeinit stop =>
    if noCl s then some (deinit { s with op := .idle, lk := false, att := false, stopped := stop })
    else none

/-- Start of `ocf_mngt_cache_cleaning_set_policy`, with the management lock taken. A policy out of range
and a standby cache are left out. `mem`: the pipeline could be allocated.
Source: /repo/src/mngt/ocf_mngt_flush.c:1053-1096. -/
def swStart (e : Env) (s : St) (n : Pol) (mem : Bool) : Option St :=
  if s.lk || (!s.att && !e.det) then none
  else if n = s.pol then some { s with rep := ⟨s.pol, n, .same, s.pol, s.att⟩ :: s.rep }
  else if s.cd then some { s with rep := ⟨s.pol, n, .disabled, s.pol, s.att⟩ :: s.rep }
  else if !mem then some { s with rep := ⟨s.pol, n, .nomem, s.pol, s.att⟩ :: s.rep }
  else some { s with op := .swEx s.pol n, lk := true }

/-- The cache device is being detached: requests no longer see the cache as attached.
Source: /repo/src/mngt/ocf_mngt_cache.c:3790-3798. -/
def leaving : Op → Bool
  | .dtWait _ => true
  | .dtDeinit _ => true
  | _ => false

/-- What can happen. `io n`: a request that will call the policy `n` times takes the metadata lock for
reading. `cl`: a run of the cleaner takes the management lock (when it cannot, it does nothing).
`core`: adding or removing a core with a cache device attached. `th i c`: a step of thread `i`. `op c`: a
step of the operation. `done`: the completion of the cleaner's order uses the context and gives the
management lock back. `sw`: start of switching. `attach d`, `load p clean d`, `detach`, `stop`: start of
these; `d` is the parameter that disables the cleaner; a load sets the policy it found.
Source: /repo/src/cleaning/cleaning.c:82-121, /repo/src/mngt/ocf_mngt_core.c:433-439,
/repo/src/mngt/ocf_mngt_cache.c:1453-1474, /repo/src/mngt/ocf_mngt_cache.c:1745-1752,
/repo/src/mngt/ocf_mngt_cache.c:3436-3460. -/
inductive Act
  | io (n : Nat) | cl | core | th (i : Nat) (c : Bool) | op (c : Bool) | done
  | sw (n : Pol) (mem : Bool) | attach (d : Bool) | load (p : Pol) (clean d : Bool) | detach | stop
  deriving DecidableEq, Repr

/-- The step taken by an action, if it is possible. Stopping a cache without a cache device frees the
cache and not the context.
Source: /repo/src/cleaning/cleaning.c:82-121, /repo/src/cleaning/alru.c:875-889,
/repo/src/cleaning/acp.c:617-645, /repo/src/mngt/ocf_mngt_core.c:433-439,
/repo/src/mngt/ocf_mngt_cache.c:1453-1474, /repo/src/mngt/ocf_mngt_cache.c:3436-3460. -/
def act (e : Env) (s : St) (a : Act) : Option St :=
  if s.crash || s.stopped then none
  else match a with
  | .io n =>
    if s.att && !s.mdx && !leaving s.op then
      some { s with ths := s.ths ++ [⟨.io, n, .lk⟩] }
    else none
  | .cl =>
    if s.att && !s.lk then some { s with ths := s.ths ++ [⟨.cl, 1, .lk⟩], lk := true } else none
  | .core =>
    if s.att && !s.lk then
      some { s with ths := s.ths ++ [⟨.mg, 1, .lk⟩], lk := true, op := .hook }
    else none
  | .th i c =>
    match s.ths[i]? with
    | none => none
    | some t => thStep s i t c
  | .op c => opStep e s c
  | .done =>
    match s.out with
    | none => none
    | some p => some (if fits s.ctx p then { s with out := none, lk := false } else { s with crash := true })
  | .sw n mem => swStart e s n mem
  | .attach d =>
    if !s.att && !s.lk then
      some { s with op := .atInit, lk := true, cd := d, pol := if d then .nop else s.pol }
    else none
  | .load p clean d =>
    if !s.att && !s.lk then some { s with op := .ldInit clean, lk := true, cd := d, pol := p } else none
  | .detach => if s.att && !s.lk then some { s with op := .dtWait false, lk := true } else none
  | .stop =>
    if s.lk then none
    else if s.att then some { s with op := .dtWait true, lk := true }
    else some { s with stopped := true, lost := s.lost + (if s.ctx.isSome then 1 else 0), ctx := none }

/-- A step.
Source: /repo/src/mngt/ocf_mngt_flush.c:945-1096, /repo/src/cleaning/cleaning_ops.h:123-295. -/
def Step (e : Env) (s t : St) : Prop := ∃ a, act e s a = some t

/-- A list of actions.
Source: /repo/src/mngt/ocf_mngt_flush.c:945-1096, /repo/src/cleaning/cleaning_ops.h:123-295. -/
def acts (e : Env) (s : St) : List Act → Option St
  | [] => some s
  | a :: l => (act e s a).bind (fun t => acts e t l)

end Verif.PolicySwitch
