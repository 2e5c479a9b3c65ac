/-!
Model of the request, block, error and usage statistics: counting, collecting while requests are running,
and the figures reported. Sources: `/repo/src/ocf_stats.c`, `/repo/src/ocf_stats_builder.c`,
`/repo/src/utils/utils_stats.h`.

Simplifications. Counters do not wrap (they are 64 bits wide); computed values wrap at 64 bits as in the code.
A counter of requests is named by a number, that stands for core and I/O class, and the direction (`true` for
writes). Debug statistics are not modelled.
-/

namespace Verif.Stats

/-- `struct ocf_counters_req` (`/repo/src/ocf_stats_priv.h:20-25`), also `struct ocf_stats_req`
(`/repo/src/ocf_stats_priv.h:33-45`). -/
structure Req where
  part : Nat
  full : Nat
  total : Nat
  pt : Nat
deriving DecidableEq

/-- Name of a counter: core and class, direction (`/repo/src/ocf_stats.c:120-127`). -/
abbrev Cell := Nat × Bool

/-- Kind of a counted request (`/repo/src/ocf_stats.c:129-134`). -/
inductive Kind where
  | hit
  | part
  | full
  | pt
deriving DecidableEq

/-- What `ocf_core_stats_request_update` finds (`/repo/src/ocf_stats.c:131-134`). -/
def kindOf (hits lines : Nat) : Kind := if hits = 0 then .full else if hits < lines then .part else .hit

/-- `accum_req_stats` of one counter (`/repo/src/ocf_stats.c:243-250`), in the order of its reads; the same
reads as `copy_req_stats` (`/repo/src/ocf_stats.c:234-241`). -/
inductive Read where
  | part
  | full
  | total
  | pt
deriving DecidableEq

/-- The reads of one counter, in order (`/repo/src/ocf_stats.c:246-249`). -/
def readOrder : List Read := [.part, .full, .total, .pt]

/-- All reads of a collection over the given counters: the loops of `ocf_core_get_stats`
(`/repo/src/ocf_stats.c:361-367`), `ocf_core_io_class_get_stats` (`/repo/src/ocf_stats.c:320-321`) and the visits
of all cores (`/repo/src/ocf_stats_builder.c:404-425`, `/repo/src/ocf_stats_builder.c:210-235`). -/
def program (cells : List Nat) : List (Cell × Read) :=
  cells.flatMap fun i => readOrder.map (fun r => ((i, false), r)) ++ readOrder.map fun r => ((i, true), r)

/-- Counters, updates that have counted the request but not yet its miss (`/repo/src/ocf_stats.c:113-135`), and the
collection in progress, for both directions (`/repo/src/ocf_stats.c:361-367`). Only for specification: the requests
counted so far, the counters when the collection started and what it collects. -/
structure St where
  cnt : Cell → Req
  owePart : Cell → Nat
  oweFull : Cell → Nat
  todo : List (Cell × Read)
  acc : Bool → Req
  hist : List (Cell × Kind)
  base : Cell → Req
  cells : List Nat

/-- Change of one value of a function on counters; helper for the increments of `/repo/src/ocf_stats.c:113-155`.
-/
def upd {α κ : Type} [DecidableEq κ] (f : κ → α) (i : κ) (v : α) : κ → α := fun j => if j = i then v else f j

/-- One read (`/repo/src/ocf_stats.c:246-249`). -/
def get (a c : Req) : Read → Req
  | .part => { a with part := a.part + c.part }
  | .full => { a with full := a.full + c.full }
  | .total => { a with total := a.total + c.total }
  | .pt => { a with pt := a.pt + c.pt }

/-- One store of `ocf_stats_req_init` (`/repo/src/ocf_stats.c:31-37`). -/
def clear (c : Req) : Read → Req
  | .part => { c with part := 0 }
  | .full => { c with full := 0 }
  | .total => { c with total := 0 }
  | .pt => { c with pt := 0 }

/-- Steps. `reset` permits `ocf_core_stats_initialize` (`/repo/src/ocf_stats.c:197-215`). -/
inductive Step (reset : Bool) : St → St → Prop where
  /-- `total` is incremented for a request that hit `hits` of its `lines` lines (`/repo/src/ocf_stats.c:129`) -/
  | count (s : St) (i : Cell) (hits lines : Nat) :
      Step reset s { s with
        cnt := upd s.cnt i { s.cnt i with total := (s.cnt i).total + 1 }
        owePart := if kindOf hits lines = .part then upd s.owePart i (s.owePart i + 1) else s.owePart
        oweFull := if kindOf hits lines = .full then upd s.oweFull i (s.oweFull i + 1) else s.oweFull
        hist := (i, kindOf hits lines) :: s.hist }
  /-- `full_miss` is incremented (`/repo/src/ocf_stats.c:131-132`) -/
  | missFull (s : St) (i : Cell) : 0 < s.oweFull i →
      Step reset s { s with
        cnt := upd s.cnt i { s.cnt i with full := (s.cnt i).full + 1 }
        oweFull := upd s.oweFull i (s.oweFull i - 1) }
  /-- `partial_miss` is incremented (`/repo/src/ocf_stats.c:133-134`) -/
  | missPart (s : St) (i : Cell) : 0 < s.owePart i →
      Step reset s { s with
        cnt := upd s.cnt i { s.cnt i with part := (s.cnt i).part + 1 }
        owePart := upd s.owePart i (s.owePart i - 1) }
  /-- `ocf_core_stats_request_pt_update` (`/repo/src/ocf_stats.c:137-155`) -/
  | pass (s : St) (i : Cell) :
      Step reset s { s with cnt := upd s.cnt i { s.cnt i with pt := (s.cnt i).pt + 1 }, hist := (i, .pt) :: s.hist }
  /-- a collection starts (`/repo/src/ocf_stats_builder.c:272-494`) -/
  | start (s : St) (cells : List Nat) : s.todo = [] →
      Step reset s { s with todo := program cells, acc := fun _ => ⟨0, 0, 0, 0⟩, base := s.cnt, cells }
  /-- the collection reads a value (`/repo/src/ocf_stats.c:243-250`) -/
  | read (s : St) (i : Cell) (r : Read) (rest : List (Cell × Read)) : s.todo = (i, r) :: rest →
      Step reset s { s with acc := upd s.acc i.2 (get (s.acc i.2) (s.cnt i) r), todo := rest }
  /-- `ocf_stats_req_init` (`/repo/src/ocf_stats.c:31-37`), one store at a time -/
  | zero (s : St) (i : Cell) (r : Read) : reset = true →
      Step reset s { s with cnt := upd s.cnt i (clear (s.cnt i) r) }

/-- After `ocf_core_stats_initialize` (`/repo/src/ocf_stats.c:197-215`). -/
def init : St := ⟨fun _ => ⟨0, 0, 0, 0⟩, fun _ => 0, fun _ => 0, [], fun _ => ⟨0, 0, 0, 0⟩, [], fun _ => ⟨0, 0, 0, 0⟩, []⟩

/-- `struct ocf_stat` (`/repo/inc/ocf_stats.h:20-25`). -/
structure Stat where
  value : Nat
  fraction : Nat
deriving DecidableEq

/-- `_fraction` (`/repo/src/utils/utils_stats.h:17-26`). -/
def fraction (n d : Nat) : Nat := if d = 0 then 0 else 10000 * n % 2 ^ 64 / d

/-- `_set` (`/repo/src/utils/utils_stats.h:43-48`). -/
def set (v d : Nat) : Stat := ⟨v, fraction v d⟩

/-- `_lines4k` (`/repo/src/utils/utils_stats.h:28-36`). -/
def lines4k (lines size : Nat) : Nat := lines * (size / 4096) % 2 ^ 64

/-- `_bytes4k` (`/repo/src/utils/utils_stats.h:38-41`). -/
def bytes4k (bytes : Nat) : Nat := (bytes + 4095) % 2 ^ 64 / 4096

/-- Unsigned 64-bit subtraction, as in `/repo/src/ocf_stats_builder.c:24-25`. -/
def sub64 (a b : Nat) : Nat := (a + 2 ^ 64 - b % 2 ^ 64) % 2 ^ 64

/-- `struct ocf_stats_requests` (`/repo/inc/ocf_stats.h:75-88`). -/
structure Requests where
  rdHits : Stat
  rdPart : Stat
  rdFull : Stat
  rdTotal : Stat
  wrHits : Stat
  wrPart : Stat
  wrFull : Stat
  wrTotal : Stat
  rdPt : Stat
  wrPt : Stat
  serviced : Stat
  total : Stat

/-- `_fill_req` (`/repo/src/ocf_stats_builder.c:16-46`), the same as `_fill_req_part`
(`/repo/src/ocf_stats_builder.c:48-79`). -/
def fillReq (r w : Req) : Requests :=
  let serviced := (r.total + w.total) % 2 ^ 64
  let total := (serviced + r.pt + w.pt) % 2 ^ 64
  { rdHits := set (sub64 r.total (r.full + r.part)) total
    rdPart := set r.part total
    rdFull := set r.full total
    rdTotal := set r.total total
    wrHits := set (sub64 w.total (w.full + w.part)) total
    wrPart := set w.part total
    wrFull := set w.full total
    wrTotal := set w.total total
    rdPt := set r.pt total
    wrPt := set w.pt total
    serviced := set serviced total
    total := set total total }

/-- Read, write and total of a pair of counters, as in `_fill_blocks` (`/repo/src/ocf_stats_builder.c:87-92`
and the like) and `_fill_errors` (`/repo/src/ocf_stats_builder.c:162-167`). -/
def fillPair (rd wr : Nat) : Stat × Stat × Stat :=
  let total := (rd + wr) % 2 ^ 64
  (set rd total, set wr total, set total total)

/-- The blocks of a device (`/repo/src/ocf_stats_builder.c:86-92`, `/repo/src/ocf_stats_builder.c:94-100`). -/
def fillBlocks (rd wr : Nat) : Stat × Stat × Stat := fillPair (bytes4k rd) (bytes4k wr)

/-- `struct ocf_stats_usage` (`/repo/inc/ocf_stats.h:42-47`). -/
structure Usage where
  occupancy : Stat
  free : Stat
  clean : Stat
  dirty : Stat

/-- Usage of a core (`/repo/src/ocf_stats_builder.c:372-388`): lines of the core, dirty lines of it, lines of
all cores, lines of the cache, line size. -/
def usageCore (occ dirty all size L : Nat) : Usage :=
  { occupancy := set (lines4k occ L) (lines4k size L)
    free := set (lines4k (sub64 size all) L) (lines4k size L)
    clean := set (lines4k (sub64 occ dirty) L) (lines4k occ L)
    dirty := set (lines4k dirty L) (lines4k occ L) }

/-- Usage of the cache (`/repo/src/ocf_stats_builder.c:464-480`). -/
def usageCache (occ dirty size L : Nat) : Usage :=
  { occupancy := set (lines4k occ L) (lines4k size L)
    free := set (lines4k (sub64 size occ) L) (lines4k size L)
    clean := set (lines4k (sub64 occ dirty) L) (lines4k size L)
    dirty := set (lines4k dirty L) (lines4k size L) }

/-- Usage of an I/O class (`/repo/src/ocf_stats_builder.c:246-263`); `free_clines` is 0
(`/repo/src/ocf_stats.c:318`). -/
def usagePart (occ dirty size L : Nat) : Usage :=
  { occupancy := set (lines4k occ L) (lines4k size L)
    free := set (lines4k 0 L) (lines4k size L)
    clean := set (lines4k (sub64 occ dirty) L) (lines4k occ L)
    dirty := set (lines4k dirty L) (lines4k occ L) }

/-- Cached and dirty lines of a class, and the collection of both (`/repo/src/ocf_stats.c:374-377`), one
after the other. -/
structure Lines where
  cached : Nat
  dirty : Nat
  occ : Option Nat
  drt : Option Nat

/-- Steps: a line is cached, made dirty, cleaned, dropped (`/repo/src/utils/utils_cache_line.c:10-174`), or a
value is read (`/repo/src/ocf_stats.c:374-377`). -/
inductive LStep : Lines → Lines → Prop where
  | insert (s : Lines) : LStep s { s with cached := s.cached + 1 }
  | dirty (s : Lines) : s.dirty < s.cached → LStep s { s with dirty := s.dirty + 1 }
  | clean (s : Lines) : 0 < s.dirty → LStep s { s with dirty := s.dirty - 1 }
  | drop (s : Lines) : s.dirty < s.cached → LStep s { s with cached := s.cached - 1 }
  | readOcc (s : Lines) : s.occ = none → LStep s { s with occ := some s.cached }
  | readDirty (s : Lines) : s.occ ≠ none → s.drt = none → LStep s { s with drt := some s.dirty }

end Verif.Stats
