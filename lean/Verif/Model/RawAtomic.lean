/-! Flushing metadata kept in the atomic area (C64), `metadata_raw_atomic.c`.

The metadata of a cache line is stored by the device with each sector. To persist that sectors have become invalid, the
sectors themselves are discarded, or written with zeros. -/

namespace Verif.RawAtomic

/-- An entry of the map of a request, the fields that are used here.
Source: /repo/src/ocf_request.h:72-103. -/
structure Ent where
  coll : Nat
  miss : Bool
  flush : Bool
  start : Nat
  stop : Nat
  deriving DecidableEq, Repr

/-- A command for the device. `disc`: a discard, otherwise a write of zeros.
Source: /repo/src/metadata/metadata_raw_atomic.c:56-59. -/
structure Cmd where
  disc : Bool
  addr : Nat
  len : Nat
  deriving DecidableEq, Repr

/-- The cache and the request. `S`, sectors per cache line; `off`, where data begins on the device; `dz`, the device
reads zeros after a discard; `marked`, `info.flush_metadata`; `mem`, whether an allocation succeeds.
Source: /repo/src/metadata/metadata_raw_atomic.c:100-130. -/
structure Ctx where
  S : Nat
  off : Nat
  dz : Bool
  marked : Bool
  mem : Bool
  map : List Ent
  deriving Repr

/-- `to_state` of a mark.
Source: /repo/src/metadata/metadata_raw_atomic.c:65-65. -/
inductive To | invalid | clean | dirty
  deriving DecidableEq, Repr

/-- `raw_atomic_flush_mark`.
Source: /repo/src/metadata/metadata_raw_atomic.c:62-71. -/
def mark (c : Ctx) (i : Nat) (t : To) (a z : Nat) : Ctx :=
  match c.map[i]? with
  | none => c
  | some e =>
    if t = .invalid then
      { c with map := c.map.set i { e with flush := true, start := a, stop := z }, marked := true }
    else c

/-- The loop of `ocf_purge_map_info` from line `i` on, the marks only: `n` lines remain. `addr`, `bytes` of the request.
Source: /repo/src/utils/utils_cache_line.h:189-214. -/
def purgeFrom (addr bytes : Nat) : Nat → Nat → Ctx → Ctx
  | 0, _, c => c
  | n + 1, i, c =>
    match c.map[i]? with
    | none => c
    | some e =>
      if e.miss then purgeFrom addr bytes n (i + 1) c
      else
        let a := if i = 0 then addr / 512 % c.S else 0
        let z := if i + 1 = c.map.length then (addr + bytes - 1) / 512 % c.S else c.S - 1
        purgeFrom addr bytes n (i + 1) (mark c i .invalid a z)

/-- `ocf_purge_map_info`.
Source: /repo/src/utils/utils_cache_line.h:170-215. -/
def purge (addr bytes : Nat) (c : Ctx) : Ctx := purgeFrom addr bytes c.map.length 0 c

/-- `start_addr` of a line. 64-bit arithmetic, which cannot overflow: a line number has 32 bits, a line at most 64 KiB.
Source: /repo/src/metadata/metadata_raw_atomic.c:89-91, /repo/src/metadata/metadata_raw_atomic.c:177-179. -/
def Ctx.base (c : Ctx) (coll : Nat) : Nat := coll * (c.S * 512) + c.off

/-- `_raw_atomic_io_discard_do`: the command.
Source: /repo/src/metadata/metadata_raw_atomic.c:48-60. -/
def Ctx.cmd (c : Ctx) (addr len : Nat) : Cmd := if c.dz then ⟨true, addr, len⟩ else ⟨false, addr, len⟩

/-- `_raw_atomic_flush_do_asynch_sec`. `stop - start` is not negative for any mark the code makes.
Source: /repo/src/metadata/metadata_raw_atomic.c:82-98. -/
def Ctx.sec (c : Ctx) (e : Ent) : Cmd := c.cmd (c.base e.coll + e.start * 512) ((e.stop - e.start) * 512 + 512)

/-- Whether a marked line is dealt with on its own; else it is put in the table. `i`, its index; `n`, lines in all.
Source: /repo/src/metadata/metadata_raw_atomic.c:146-167. -/
def Ctx.alone (c : Ctx) (n i : Nat) (e : Ent) : Bool :=
  if i = 0 then e.start != 0
  else if i + 1 = n then e.stop != c.S - 1
  else false

/-- The loop over lines: the commands it sends, and the table.
Source: /repo/src/metadata/metadata_raw_atomic.c:140-169, /repo/src/metadata/metadata_raw_atomic.c:75-80. -/
def Ctx.loop (c : Ctx) (n : Nat) : Nat → List Ent → List Cmd × List Nat
  | _, [] => ([], [])
  | i, e :: r =>
    if !e.flush || e.miss then c.loop n (i + 1) r
    else if c.alone n i e then (c.sec e :: (c.loop n (i + 1) r).1, (c.loop n (i + 1) r).2)
    else ((c.loop n (i + 1) r).1, e.coll :: (c.loop n (i + 1) r).2)

/-- 32-bit arithmetic.
Source: /repo/src/metadata/metadata_raw_atomic.c:107-107. -/
def W : Nat := 4294967296

/-- The inner loop and the rest of the outer one. A run began at `start`, is `len` long and ends with line `cur`.
Source: /repo/src/metadata/metadata_raw_atomic.c:182-197. -/
def Ctx.go (c : Ctx) (start len cur : Nat) : List Nat → List Cmd
  | [] => [c.cmd start len]
  | y :: r =>
    if (cur + 1) % W = y then c.go start ((len + c.S * 512) % W) y r
    else c.cmd start len :: c.go (c.base y) (c.S * 512) y r

/-- The outer loop over the table.
Source: /repo/src/metadata/metadata_raw_atomic.c:174-197. -/
def Ctx.runs (c : Ctx) : List Nat → List Cmd
  | [] => []
  | x :: r => c.go (c.base x) (c.S * 512) x r

/-- What a call does: it completes at once with an error or 0, or sends commands; `hold`: holding a reference itself,
`tab`: having allocated the table.
Source: /repo/src/metadata/metadata_raw_atomic.c:114-139. -/
inductive Plan
  | now (e : Int)
  | send (hold tab : Bool) (l : List Cmd)
  deriving DecidableEq, Repr

/-- `-OCF_ERR_NO_MEM`.
Source: /repo/inc/ocf_err.h:18-34. -/
def noMem : Int := -1000004

/-- `raw_atomic_flush_do_asynch`: which of the ways it goes. `env_sort` is a sort.
Source: /repo/src/metadata/metadata_raw_atomic.c:100-205. -/
def Ctx.plan (c : Ctx) : Plan :=
  if c.marked = false then .now 0
  else match c.map with
    | [e] => if e.flush && !e.miss then .send false false [c.sec e] else .now 0
    | m =>
      if 32 < m.length && !c.mem then .now noMem
      else .send true (decide (32 < m.length))
        ((c.loop m.length 0 m).1 ++ c.runs ((c.loop m.length 0 m).2.mergeSort))

/-- The running of a call. `hold`, the caller's own reference is held; `tab`, the table is allocated; `todo`, commands
not sent; `rem`, `cache_remaining`; `err`, `cache_error`; `merr`, whether `ocf_metadata_error` was called. Ghosts:
`fly`, commands the device has; `sent`, all sent; `rep`, what the device reported, in order; `out`, what `complete` was
called with.
Source: /repo/src/metadata/metadata_raw_atomic.c:100-205, /repo/src/ocf_request.h:240-250. -/
structure St where
  hold : Bool
  tab : Bool
  todo : List Cmd
  rem : Int
  err : Int
  merr : Bool
  fly : List Cmd
  sent : List Cmd
  rep : List Int
  out : List Int
  deriving Repr

/-- `_raw_atomic_io_discard_cmpl`.
Source: /repo/src/metadata/metadata_raw_atomic.c:35-46. -/
def St.cmpl (s : St) (e : Int) : St := { s with merr := s.merr || e != 0, out := s.out ++ [e] }

/-- `ocf_req_forward_cache_put`.
Source: /repo/src/ocf_request.h:562-566. -/
def St.put (s : St) : St :=
  if s.rem - 1 = 0 then { s with rem := s.rem - 1 }.cmpl s.err else { s with rem := s.rem - 1 }

/-- The beginning of a call. `ocf_metadata_flush_do_asynch` calls `ocf_metadata_error` when a call returns an error.
Source: /repo/src/metadata/metadata_raw_atomic.c:114-139, /repo/src/metadata/metadata.c:1179-1202. -/
def begin (c : Ctx) : St :=
  match c.plan with
  | .now e => ⟨false, false, [], 0, 0, e != 0, [], [], [], [e]⟩
  | .send h t l => ⟨h, t, l, if h then 1 else 0, 0, false, [], [], [], []⟩

/-- A command is sent: a reference is taken and the volume gets it.
Source: /repo/src/ocf_request.c:518-536. -/
def St.send (s : St) (c : Cmd) (r : List Cmd) : St :=
  { s with todo := r, rem := s.rem + 1, fly := c :: s.fly, sent := s.sent ++ [c] }

/-- The device ends a command, `ocf_forward_end`.
Source: /repo/src/ocf_request.c:668-679. -/
def St.fin (s : St) (c : Cmd) (e : Int) : St :=
  { s with fly := s.fly.erase c, err := if s.err = 0 then e else s.err, rep := s.rep ++ [e] }.put

/-- Steps of the call and of the device, in any order: the device may end a command while others are being sent.
Source: /repo/src/metadata/metadata_raw_atomic.c:139-204, /repo/src/ocf_request.c:668-679. -/
inductive Step : St → St → Prop
  | send (s c r) : s.todo = c :: r → Step s (s.send c r)
  | fin (s c e) : c ∈ s.fly → Step s (s.fin c e)
  | put (s) : s.todo = [] → s.hold = true → Step s { s with hold := false }.put
  | free (s) : s.todo = [] → s.hold = false → s.tab = true → Step s { s with tab := false }

end Verif.RawAtomic
