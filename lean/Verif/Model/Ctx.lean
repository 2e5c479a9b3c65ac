/-! The context of the library: creation, references, volume types and the pool of cores (C57).

Each call is one step: the list of types and the pool are changed under `ctx->lock`, and the counter is
atomic. A volume type object is a number, new for every object; a uuid is a number. -/

namespace Verif.Ctx

/-- Number of types for users.
Source: /repo/src/ocf_ctx_priv.h:15-17. -/
def maxUser : Nat := 8

/-- Number of types.
Source: /repo/src/ocf_ctx_priv.h:18-19. -/
def maxType : Nat := 11

/-- A volume: its type object and its uuid.
Source: /repo/src/ocf_volume_priv.h:24-40. -/
structure Vol where
  typ : Nat
  uuid : Nat
  deriving DecidableEq, Repr

/-- A context: references, types by id, the pool with its count, number of caches.
Source: /repo/src/ocf_ctx_priv.h:32-51. -/
structure C where
  refs : Nat
  types : List (Option Nat)
  pool : List Vol
  cnt : Int
  caches : Nat
  deriving DecidableEq, Repr

/-- What the library holds, over all contexts there ever were: context structures, mutexes, open loggers,
pools of requests and of metadata I/O, type objects.
Source: /repo/src/ocf_ctx.c:180-246. -/
structure Held where
  mem : Nat := 0
  mtx : Nat := 0
  log : Nat := 0
  req : Nat := 0
  mio : Nat := 0
  live : List Nat := []
  deriving DecidableEq, Repr

/-- The state. `next`: the next type object. `vols`: volumes outside the pool, made by the user or taken by a
core. `mine`: references of the user. Ghosts: `bad` a freed type object was used, `bug` an assertion failed,
`failed` a creation failed, `early` a type object was freed while a volume of it existed, `intl` a type of
the library was unregistered by the user.
Source: /repo/src/ocf_ctx.c:180-291, /repo/src/mngt/ocf_mngt_core_pool.c:14-129. -/
structure St where
  ctx : Option C := none
  held : Held := {}
  next : Nat := 0
  vols : List Vol := []
  mine : Nat := 0
  bad : Bool := false
  bug : Bool := false
  failed : Bool := false
  early : Bool := false
  intl : Bool := false
  deriving DecidableEq, Repr

/-- Which of the calls of a creation succeed.
Source: /repo/src/ocf_ctx.c:190-229. -/
structure In where
  mem : Bool
  mtx : Bool
  log : Bool
  req : Bool
  mio : Bool
  core : Bool
  cache : Bool
  comp : Bool
  deriving DecidableEq, Repr

/-- Label `err_ctx`.
Source: /repo/src/ocf_ctx.c:243-246. -/
def errCtx (h : Held) : Held := { h with mem := h.mem - 1 }

/-- Label `err_logger`.
Source: /repo/src/ocf_ctx.c:241-246. -/
def errLog (h : Held) : Held := errCtx { h with log := h.log - 1 }

/-- Label `err_mio`.
Source: /repo/src/ocf_ctx.c:239-246. -/
def errMio (h : Held) : Held := errLog { h with req := h.req - 1 }

/-- Label `err_utils`.
Source: /repo/src/ocf_ctx.c:237-246. -/
def errUtils (h : Held) : Held := errMio { h with mio := h.mio - 1 }

/-- Label `err_core_volume`: `t` is the type object of core volumes.
Source: /repo/src/ocf_ctx.c:235-246. -/
def errCore (h : Held) (t : Nat) : Held := errUtils { h with live := h.live.erase t }

/-- `ocf_ctx_create`. The registration of a type of the library either makes the type object or fails
(`In.core`, `In.cache`, `In.comp`). Checks of the operations given (`check_ops_provided`) are left out.
Source: /repo/src/ocf_ctx.c:180-246. -/
def create (s : St) (i : In) : St × Bool :=
  let fail (h : Held) : St × Bool := ({ s with held := h, failed := true, next := s.next + 2 }, false)
  let h := s.held
  if !i.mem then fail h else
  let h := { h with mem := h.mem + 1 }
  if !i.mtx then fail (errCtx h) else
  let h := { h with mtx := h.mtx + 1 }
  if !i.log then fail (errCtx h) else
  let h := { h with log := h.log + 1 }
  if !i.req then fail (errLog h) else
  let h := { h with req := h.req + 1 }
  if !i.mio then fail (errMio h) else
  let h := { h with mio := h.mio + 1 }
  if !i.core then fail (errUtils h) else
  let h := { h with live := s.next :: h.live }
  if !i.cache then fail (errUtils h) else
  let h := { h with live := (s.next + 1) :: h.live }
  if !i.comp then fail (errCore h s.next) else
  let h := { h with live := (s.next + 2) :: h.live }
  ({ s with
     ctx := some ⟨1, List.replicate maxUser none ++ [some s.next, some (s.next + 1), some (s.next + 2)], [], 0, 0⟩
     held := h, next := s.next + 3, mine := 1 }, true)

/-- `ocf_ctx_get_volume_type_internal`; an id out of range has no type.
Source: /repo/src/ocf_ctx.c:96-111. -/
def getInternal (c : C) (id : Nat) : Option Nat :=
  if id ≥ maxType then none else (c.types[id]?).join

/-- `ocf_ctx_get_volume_type`.
Source: /repo/src/ocf_ctx.c:113-121. -/
def getType (c : C) (id : Nat) : Option Nat := if id ≥ maxUser then none else getInternal c id

/-- `ocf_ctx_get_volume_type_id`: the first id whose pointer equals the one given, -1 (here `none`) without
one. The pointer given may be NULL (`none`).
Source: /repo/src/ocf_ctx.c:126-140. -/
def getId (c : C) (t : Option Nat) : Option Nat := c.types.findIdx? (· == t)

/-- `ocf_ctx_register_volume_type` and `_internal`: `ok` tells whether the operations are complete and
memory was found.
Source: /repo/src/ocf_ctx.c:22-66, /repo/src/ocf_volume.c:35-75. -/
def register (s : St) (c : C) (id : Nat) (ok : Bool) : St × Bool :=
  if id ≥ maxUser then (s, false)
  else if id ≥ maxType || (getInternal c id).isSome then (s, false)
  else if !ok then (s, false)
  else ({ s with ctx := some { c with types := c.types.set id (some s.next) }
                 held := { s.held with live := s.next :: s.held.live }, next := s.next + 1 }, true)

/-- `ocf_ctx_unregister_volume_type_internal`, on the types and the type objects.
Source: /repo/src/ocf_ctx.c:71-83, /repo/src/ocf_volume.c:77-84. -/
def unregOne (p : List (Option Nat) × List Nat) (id : Nat) : List (Option Nat) × List Nat :=
  match (p.1[id]?).join with
  | none => p
  | some t => if id < maxType then (p.1.set id none, p.2.erase t) else p

/-- Whether a volume outlives its type object.
Source: /repo/src/ocf_volume.c:77-84, /repo/src/ocf_volume_priv.h:24-40. -/
def orphan (live : List Nat) (vs : List Vol) : Bool := vs.any (fun v => !live.contains v.typ)

/-- `ocf_ctx_unregister_volume_type`.
Source: /repo/src/ocf_ctx.c:85-91. -/
def unregister (s : St) (c : C) (id : Nat) : St :=
  if id < maxType then
    let p := unregOne (c.types, s.held.live) id
    { s with ctx := some { c with types := p.1 }, held := { s.held with live := p.2 }
             early := s.early || orphan p.2 (s.vols ++ c.pool), intl := s.intl || decide (id ≥ maxUser) }
  else s

/-- A use of the type object of volumes, which must not have been freed.
Source: /repo/src/ocf_volume.c:168-185, /repo/src/ocf_volume.c:447-490. -/
def useTypes (s : St) (vs : List Vol) : St := { s with bad := s.bad || orphan s.held.live vs }

/-- `ocf_ctx_unregister_volume_types`: the type objects left.
Source: /repo/src/ocf_ctx.c:261-267. -/
def unregAll (types : List (Option Nat)) (live : List Nat) : List Nat :=
  ((List.range maxType).foldl unregOne (types, live)).2

/-- What is taken back when the last reference is dropped: pool (volumes are
closed and destroyed), types, mutex, pools, logger, memory.
Source: /repo/src/ocf_ctx.c:261-291, /repo/src/mngt/ocf_mngt_core_pool.c:107-129. -/
def destroy (s : St) (c : C) : St :=
  let s := { s with bug := s.bug || decide (c.caches ≠ 0) }
  let s := useTypes s c.pool
  let live := unregAll c.types s.held.live
  { s with ctx := none
           held := { mem := s.held.mem - 1, mtx := s.held.mtx - 1, log := s.held.log - 1
                     req := s.held.req - 1, mio := s.held.mio - 1, live := live }
           early := s.early || orphan live s.vols }

/-- `ocf_ctx_put`.
Source: /repo/src/ocf_ctx.c:272-291. -/
def put (s : St) (c : C) : St :=
  if c.refs - 1 ≠ 0 then { s with ctx := some { c with refs := c.refs - 1 } }
  else destroy s c

/-- `ocf_mngt_core_pool_lookup`.
Source: /repo/src/mngt/ocf_mngt_core_pool.c:80-105. -/
def lookup (c : C) (uuid typ : Nat) : Option Vol := c.pool.find? (fun v => v.typ == typ && v.uuid == uuid)

/-- `ocf_mngt_core_pool_visit`: the volumes visited, given at which ones the visitor stops.
Source: /repo/src/mngt/ocf_mngt_core_pool.c:60-78. -/
def visit (stop : Vol → Bool) : List Vol → List Vol
  | [] => []
  | v :: l => if stop v then [v] else v :: visit stop l

/-- `ocf_mngt_core_pool_add`: `vc` the volume could be created, `vo` it could be opened (otherwise it is
destroyed again).
Source: /repo/src/mngt/ocf_mngt_core_pool.c:30-58. -/
def poolAdd (s : St) (c : C) (id uuid : Nat) (vc vo : Bool) : St × Bool :=
  match getType c id with
  | none => (s, false)
  | some t =>
    if !vc then (s, false)
    else
      let s := useTypes s [⟨t, uuid⟩]
      if !vo then (s, false)
      else ({ s with ctx := some { c with pool := ⟨t, uuid⟩ :: c.pool, cnt := c.cnt + 1 } }, true)

/-- A core takes a volume from the pool on load: lookup, move, removal from the pool. The volume left in the
pool's structure has no type any more, so its destruction uses none.
Source: /repo/src/mngt/ocf_mngt_cache.c:433-449, /repo/src/mngt/ocf_mngt_core_pool.c:107-116,
/repo/src/ocf_volume.c:187-216. -/
def poolTake (s : St) (c : C) (uuid typ : Nat) : St × Bool :=
  match lookup c uuid typ with
  | none => (s, false)
  | some v =>
    ({ s with ctx := some { c with pool := c.pool.erase v, cnt := c.cnt - 1 }, vols := v :: s.vols }, true)

/-- `ocf_ctx_volume_create`; `ok`: memory was found and the volume initialised.
Source: /repo/src/ocf_ctx.c:145-157, /repo/src/ocf_volume.c:218-239. -/
def volCreate (s : St) (c : C) (id uuid : Nat) (ok : Bool) : St × Bool :=
  match getType c id with
  | none => (s, false)
  | some t =>
    let s := useTypes s [⟨t, uuid⟩]
    if !ok then (s, false) else ({ s with vols := ⟨t, uuid⟩ :: s.vols }, true)

/-- The calls. `get`, `put`: of the user, who puts only references got. `start`, `stop`: a cache takes a
reference when it starts and drops it after leaving the list of caches. `useVol`, `delVol`: a volume is
used, or closed and destroyed.
Source: /repo/src/ocf_ctx.c:22-291, /repo/src/mngt/ocf_mngt_core_pool.c:14-129,
/repo/src/mngt/ocf_mngt_cache.c:1586-1648, /repo/src/mngt/ocf_mngt_cache.c:2319-2339. -/
inductive Op
  | create (i : In) | get | put | start | stop
  | register (id : Nat) (ok : Bool) | unregister (id : Nat)
  | poolAdd (id uuid : Nat) (vc vo : Bool) | poolTake (uuid typ : Nat)
  | volCreate (id uuid : Nat) (ok : Bool) | useVol (k : Nat) | delVol (k : Nat)
  deriving DecidableEq, Repr

/-- One call. Calls on a context need one; only one context at a time is modelled.
Source: /repo/src/ocf_ctx.c:22-291, /repo/src/mngt/ocf_mngt_core_pool.c:14-129. -/
def step (s : St) (o : Op) : St :=
  match o, s.ctx with
  | .create i, none => (create s i).1
  | .get, some c => { s with ctx := some { c with refs := c.refs + 1 }, mine := s.mine + 1 }
  | .put, some c => if s.mine = 0 then s else put { s with mine := s.mine - 1 } c
  | .start, some c => { s with ctx := some { c with refs := c.refs + 1, caches := c.caches + 1 } }
  | .stop, some c => if c.caches = 0 then s else put s { c with caches := c.caches - 1 }
  | .register id ok, some c => (register s c id ok).1
  | .unregister id, some c => unregister s c id
  | .poolAdd id uuid vc vo, some c => (poolAdd s c id uuid vc vo).1
  | .poolTake uuid typ, some c => (poolTake s c uuid typ).1
  | .volCreate id uuid ok, some c => (volCreate s c id uuid ok).1
  | .useVol k, _ => match s.vols[k]? with | none => s | some v => useTypes s [v]
  | .delVol k, _ => match s.vols[k]? with
    | none => s
    | some v => { useTypes s [v] with vols := s.vols.eraseIdx k }
  | _, _ => s

/-- A history.
Source: /repo/src/ocf_ctx.c:22-291. -/
def run (l : List Op) : St := l.foldl step {}

end Verif.Ctx
