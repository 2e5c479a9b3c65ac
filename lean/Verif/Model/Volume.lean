/-! The life of volumes: initialising, opening, closing, moving, renaming, I/O references; composite volumes
(C58).

Allocations are numbers, never used twice. A volume is a place (a number); a place without a volume is `none`.
The counter of I/O references is taken as atomic here; its single steps are in `Verif.Refcnt` (C10). -/

namespace Verif.Volume

/-- What the pointer to the uuid's text points to: nothing, a copy, the metadata of the cache, or memory of the
caller.
Source: /repo/src/ocf_volume.c:121-144, /repo/src/mngt/ocf_mngt_cache.c:425-432,
/repo/src/mngt/ocf_mngt_core.c:910-942. -/
inductive Ptr
  | null | copy (a : Nat) | md | user
  deriving DecidableEq, Repr

/-- A volume. `typ`: it has a type; `own`: `uuid_copy`; `frz`, `cnt`: freeze counter and I/O references;
`closing`: somebody is inside `ocf_volume_close`. Ghosts: `anon` the private part was made without a uuid;
`stuck` the volume was moved here while open.
Source: /repo/src/ocf_volume_priv.h:24-41. -/
structure V where
  typ : Bool
  opened : Bool
  closing : Bool
  data : Ptr
  own : Bool
  priv : Option Nat
  frz : Nat
  cnt : Nat
  anon : Bool
  stuck : Bool
  deriving DecidableEq, Repr

/-- The state. `live`: allocations in use. `hooks`: private parts on which `on_init` ran and `on_deinit` did
not. Ghosts: `bad` something not allocated was freed; `bug` an assertion failed; `extra` `on_deinit` ran
without `on_init`; `lost` a private part was freed without the `on_deinit` due; `renamed` a uuid was replaced;
`unclosed` an open volume was deinitialised.
Source: /repo/src/ocf_volume.c:90-247. -/
structure St where
  vols : Nat → Option V := fun _ => none
  live : List Nat := []
  next : Nat := 0
  hooks : List Nat := []
  bad : Bool := false
  bug : Bool := false
  extra : Bool := false
  lost : Bool := false
  renamed : Bool := false
  unclosed : Bool := false

/-- The places with one changed.
Source: /repo/src/ocf_volume_priv.h:24-41. -/
def upd (f : Nat → Option V) (k : Nat) (v : Option V) : Nat → Option V := fun i => if i = k then v else f i

/-- `env_free`, `env_vfree` of an allocation.
Source: /repo/env/posix/ocf_env.h:127-130, /repo/env/posix/ocf_env.h:152-155. -/
def free (s : St) (a : Nat) : St :=
  if a ∈ s.live then { s with live := s.live.erase a } else { s with bad := true }

/-- `env_free` of a pointer that may be NULL.
Source: /repo/src/ocf_volume.c:175, /repo/src/ocf_volume.c:195. -/
def freeOpt (s : St) : Option Nat → St
  | none => s
  | some a => free s a

/-- `env_vfree` of the uuid's text, under the condition used everywhere.
Source: /repo/src/ocf_volume.c:180-184, /repo/src/ocf_volume.c:196-197, /repo/src/ocf_volume.c:267-268. -/
def freeUuid (s : St) (v : V) : St :=
  if v.own then
    match v.data with
    | .null => s
    | .copy a => free s a
    | .md => { s with bad := true }
    | .user => { s with bad := true }
  else s

/-- Which of the calls of an initialisation succeed: private part, counter, copy of the uuid, `on_init`.
Source: /repo/src/ocf_volume.c:104-150. -/
structure In where
  priv : Bool
  rc : Bool
  text : Bool
  hook : Bool
  deriving DecidableEq, Repr

/-- How the uuid is given: not at all, to be copied, or kept where it is (in the metadata).
Source: /repo/src/ocf_volume.c:90-91, /repo/src/ocf_volume.c:121-142. -/
inductive Uuid
  | no | copied | kept
  deriving DecidableEq, Repr

/-- The private part is freed (label `err1`).
Source: /repo/src/ocf_volume.c:162-164. -/
def err1 (s : St) (a : Nat) : St := free s a

/-- The uuid's text and the private part are freed (label `err3`; the counter needs nothing).
Source: /repo/src/ocf_volume.c:154-164. -/
def err3 (s : St) (v : V) (a : Nat) : St := err1 (freeUuid s v) a

/-- `ocf_volume_init` on a place without a volume. The type is assumed to have `on_init` and `on_deinit`, the
uuid not to be too long.
Source: /repo/src/ocf_volume.c:90-166. -/
def init (s : St) (k : Nat) (u : Uuid) (i : In) : St × Bool :=
  if !i.priv then (s, false) else
  let a := s.next
  let s := { s with live := a :: s.live, next := a + 1 }
  if !i.rc then (err1 s a, false) else
  let v : V := ⟨true, false, false, .null, false, some a, 1, 0, true, false⟩
  match u with
  | .no => ({ s with vols := upd s.vols k (some v) }, true)
  | .copied =>
    if !i.text then (err1 s a, false) else
    let b := s.next
    let s := { s with live := b :: s.live, next := b + 1 }
    let v := { v with own := true, data := .copy b, anon := false }
    if !i.hook then (err3 s v a, false)
    else ({ s with vols := upd s.vols k (some v), hooks := a :: s.hooks }, true)
  | .kept =>
    let v := { v with data := .md, anon := false }
    if !i.hook then (err3 s v a, false)
    else ({ s with vols := upd s.vols k (some v), hooks := a :: s.hooks }, true)

/-- `on_deinit` on a private part.
Source: /repo/src/ocf_volume.c:172-173. -/
def onDeinit (s : St) (v : V) : St :=
  if v.typ then
    match v.priv with
    | none => s
    | some a => if a ∈ s.hooks then { s with hooks := s.hooks.erase a } else { s with extra := true }
  else s

/-- `ocf_volume_deinit`.
Source: /repo/src/ocf_volume.c:168-185. -/
def deinit (s : St) (k : Nat) (v : V) : St :=
  let s := { s with unclosed := s.unclosed || v.opened }
  let s := freeUuid (freeOpt (onDeinit s v) v.priv) v
  { s with vols := upd s.vols k none }

/-- Whether `on_deinit` is due on a private part.
Source: /repo/src/ocf_volume.c:146-150, /repo/src/ocf_volume.c:172-173. -/
def due (hooks : List Nat) : Option Nat → Bool
  | none => false
  | some a => decide (a ∈ hooks)

/-- `ocf_volume_move` from `w` at place `j` to `v` at place `k`. The counters stay where they are.
Source: /repo/src/ocf_volume.c:187-216. -/
def move (s : St) (k j : Nat) (v w : V) : St :=
  if v.cnt ≠ 0 || w.cnt ≠ 0 then { s with bug := true } else
  let s := { s with lost := s.lost || due s.hooks v.priv }
  let s := freeUuid (freeOpt s v.priv) v
  { s with vols := upd (upd s.vols k (some { v with
             opened := w.opened, typ := w.typ, data := w.data, own := w.own, priv := w.priv, anon := w.anon
             stuck := w.opened }))
             j (some { w with opened := false, priv := none, data := .null, typ := false }) }

/-- `ocf_volume_set_uuid`.
Source: /repo/src/ocf_volume.c:263-272, /repo/src/mngt/ocf_mngt_core.c:910-942. -/
def setUuid (s : St) (k : Nat) (v : V) : St :=
  let s := freeUuid s v
  { s with vols := upd s.vols k (some { v with data := .user }), renamed := true }

/-- `ocf_volume_open`; `ok`: the type's `open` succeeds.
Source: /repo/src/ocf_volume.c:446-463, /repo/env/posix/ocf_env_refcnt.c:62-66. -/
def openV (s : St) (k : Nat) (v : V) (ok : Bool) : St × Bool :=
  if v.opened then (s, false)
  else if !ok then (s, false)
  else if v.frz = 0 then ({ s with bug := true }, false)
  else ({ s with vols := upd s.vols k (some { v with frz := v.frz - 1, opened := true }) }, true)

/-- First part of `ocf_volume_close`: the counter is frozen, the caller waits.
Source: /repo/src/ocf_volume.c:472-486. -/
def closeStart (s : St) (k : Nat) (v : V) : St :=
  if !v.opened then s
  else { s with vols := upd s.vols k (some { v with frz := v.frz + 1, closing := true }) }

/-- The wait is over once no reference is left: the type's `close`.
Source: /repo/src/ocf_volume.c:485-490. -/
def closeEnd (s : St) (k : Nat) (v : V) : St :=
  if v.closing && v.cnt = 0 then
    { s with vols := upd s.vols k (some { v with opened := false, closing := false }) }
  else s

/-- `ocf_io_new`: a reference unless frozen; `ok`: an I/O can be allocated.
Source: /repo/src/ocf_io.c:76-101, /repo/env/posix/ocf_env_refcnt.c:31-44. -/
def ioNew (s : St) (k : Nat) (v : V) (ok : Bool) : St × Bool :=
  if v.frz ≠ 0 then (s, false)
  else if !ok then (s, false)
  else ({ s with vols := upd s.vols k (some { v with cnt := v.cnt + 1 }) }, true)

/-- `ocf_io_put`.
Source: /repo/src/ocf_io.c:131-139. -/
def ioPut (s : St) (k : Nat) (v : V) : St :=
  if v.cnt = 0 then s else { s with vols := upd s.vols k (some { v with cnt := v.cnt - 1 }) }

/-- A core is loaded at place `k` and takes the volume `j` of the pool, which is then removed from the pool
and destroyed. (The counter of `j` is frozen and released around the move; nothing else happens between.)
Source: /repo/src/mngt/ocf_mngt_cache.c:432-452, /repo/src/mngt/ocf_mngt_core_pool.c:107-116. -/
def load (s : St) (k j : Nat) (i : In) : St :=
  let (s, r) := init s k .kept i
  if !r then s else
  match s.vols k, s.vols j with
  | some v, some w =>
    let s := move s k j v w
    if s.bug then s else
    match s.vols j with
    | some w => deinit s j w
    | none => s
  | _, _ => s

/-- A cache device is attached at place `k` from the volume `j` of the user; if the volume cannot be opened
the attach fails and its volume is deinitialised.
Source: /repo/src/mngt/ocf_mngt_cache.c:967-1000, /repo/src/mngt/ocf_mngt_cache.c:2027-2031. -/
def attach (s : St) (k j : Nat) (i : In) (ok : Bool) : St × Bool :=
  let (s, r) := init s k .no i
  if !r then (s, false) else
  match s.vols k, s.vols j with
  | some v, some w =>
    let s := move s k j v w
    if s.bug then (s, false) else
    match s.vols k with
    | some v =>
      let (s, r) := openV s k v ok
      if r then (s, true) else
      match s.vols k with
      | some v => (deinit s k v, false)
      | none => (s, false)
    | none => (s, false)
  | _, _ => (s, false)

/-- The calls. `create`: `ocf_volume_create`, or `ocf_volume_init` of a core's volume.
Source: /repo/src/ocf_volume.c:90-490, /repo/src/ocf_io.c:76-139, /repo/src/mngt/ocf_mngt_cache.c:432-452,
/repo/src/mngt/ocf_mngt_cache.c:967-1000, /repo/src/mngt/ocf_mngt_core.c:910-942. -/
inductive Op
  | create (k : Nat) (u : Uuid) (i : In) | destroy (k : Nat) | setUuid (k : Nat)
  | openV (k : Nat) (ok : Bool) | closeStart (k : Nat) | closeEnd (k : Nat)
  | ioNew (k : Nat) (ok : Bool) | ioPut (k : Nat)
  | load (k j : Nat) (i : In) | attach (k j : Nat) (i : In) (ok : Bool)
  deriving DecidableEq, Repr

/-- One call. The caller uses a place for one volume at a time, does not open, close, rename or hand over a
volume that was moved away (it has no type), and does not destroy, move or open a volume that is open with
I/O on it or being closed. After a failed assertion nothing happens.
Source: /repo/src/ocf_volume.c:90-490, /repo/src/ocf_io.c:76-139. -/
def step (s : St) (o : Op) : St :=
  if s.bug then s else
  match o with
  | .create k u i => match s.vols k with
    | none => (init s k u i).1
    | some _ => s
  | .destroy k => match s.vols k with
    | some v => if v.opened || v.cnt ≠ 0 then s else deinit s k v
    | none => s
  | .setUuid k => match s.vols k with
    | some v => if v.typ then setUuid s k v else s
    | none => s
  | .openV k ok => match s.vols k with
    | some v => if v.typ then (openV s k v ok).1 else s
    | none => s
  | .closeStart k => match s.vols k with
    | some v => if v.typ && !v.closing then closeStart s k v else s
    | none => s
  | .closeEnd k => match s.vols k with
    | some v => closeEnd s k v
    | none => s
  | .ioNew k ok => match s.vols k with
    | some v => if v.typ then (ioNew s k v ok).1 else s
    | none => s
  | .ioPut k => match s.vols k with
    | some v => ioPut s k v
    | none => s
  | .load k j i => match s.vols k, s.vols j with
    | none, some w => if w.typ && !w.closing then load s k j i else s
    | _, _ => s
  | .attach k j i ok => match s.vols k, s.vols j with
    | none, some w => if w.typ && !w.closing then (attach s k j i ok).1 else s
    | _, _ => s

/-- A history.
Source: /repo/src/ocf_volume.c:90-490. -/
def run (l : List Op) : St := l.foldl step {}

/-! ## Composite volumes -/

/-- A member as the composite volume sees it: open or not, and its length and largest I/O when open.
Source: /repo/src/ocf_composite_volume.c:19-28. -/
structure M where
  opened : Bool
  len : Nat
  maxIo : Nat
  deriving DecidableEq, Repr

/-- A composite volume.
Source: /repo/src/ocf_composite_volume.c:17-28. -/
structure Comp where
  mem : List M
  ends : List Nat
  length : Nat
  maxIo : Nat
  deriving DecidableEq, Repr

/-- `ocf_composite_volume_add`; `ok`: the member's volume could be initialised.
Source: /repo/src/ocf_composite_volume.c:375-395. -/
def add (c : Comp) (m : M) (ok : Bool) : Comp × Bool :=
  if c.mem.length ≥ 16 then (c, false)
  else if !ok then (c, false)
  else ({ c with mem := c.mem ++ [{ m with opened := false }] }, true)

/-- Loop of `ocf_composite_volume_open`: the members opened so far (last first), the members to open with
whether each can be opened, ends, length, largest I/O. Gives the members with the end of the loop (`true`: all
open), ends, length, largest I/O.
Source: /repo/src/ocf_composite_volume.c:274-293. -/
def openLoop : List M → List (M × Bool) → List Nat → Nat → Nat → Comp × Bool
  | done, [], ends, len, mx => (⟨done.reverse, ends, len, mx⟩, true)
  | done, (m, ok) :: l, ends, len, mx =>
    if m.opened || !ok then
      (⟨(done.map (fun m => { m with opened := false })).reverse ++ (m :: l.map (·.1)), ends, len, mx⟩, false)
    else
      openLoop ({ m with opened := true } :: done) l (ends ++ [len + m.len]) (len + m.len) (min mx m.maxIo)

/-- `ocf_composite_volume_open`. Lengths are taken not to overflow.
Source: /repo/src/ocf_composite_volume.c:267-294. -/
def openC (c : Comp) (oks : List Bool) : Comp × Bool := openLoop [] (c.mem.zip oks) [] 0 (2 ^ 32 - 1)

/-- `ocf_composite_volume_close`.
Source: /repo/src/ocf_composite_volume.c:296-303. -/
def closeC (c : Comp) : Comp := { c with mem := c.mem.map (fun m => { m with opened := false }) }

/-- `ocf_composite_volume_member_visit`: the members visited and the result.
Source: /repo/src/ocf_composite_volume.c:397-411. -/
def visitC (res : M → Int) : List M → List M × Int
  | [] => ([], 0)
  | m :: l => if res m ≠ 0 then ([m], res m) else (m :: (visitC res l).1, (visitC res l).2)

end Verif.Volume
