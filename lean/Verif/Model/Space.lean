import Verif.Lemma.IdxList

/-!
Model of making room for a request: choice of I/O classes to take cache lines from.
Sources: `/repo/src/ocf_space.c`, `/repo/src/utils/utils_user_part.c`,
`/repo/src/utils/utils_user_part.h`.
-/

namespace Verif.Space

/-- The configuration of an I/O class used here, `struct ocf_user_part_config`,
`/repo/src/ocf_part.h:18-32`: `min_size`, `max_size` in percent, `flags.valid`, `priority`. -/
structure Class where
  valid : Bool
  prio : Int
  minPct : Nat
  maxPct : Nat

/-- `OCF_IO_CLASS_PRIO_PINNED`, `/repo/inc/ocf_def.h:309`. -/
def pinned : Int := -1

/-- Configuration of the cache: number of cache lines, I/O classes, `flags.eviction` of each class
(`/repo/src/ocf_part.h:25-28`) and the order of `cache->user_part_list`. -/
structure Cfg where
  lines : Nat
  cls : Nat → Class
  evictable : Nat → Bool
  order : List Nat

/-- `v1`/`v2` of `ocf_user_part_lst_cmp_valid`, `/repo/src/utils/utils_user_part.c:23-82`: the rank
of a class, given its current occupancy; `32767` and `-32768` are `SHRT_MAX` and `SHRT_MIN`. -/
def rank (k : Class) (occ : Nat) : Int :=
  if k.valid then k.prio else if occ ≠ 0 then 32767 else -32768

/-- `flags.eviction` as set by `ocf_user_part_lst_cmp_valid`,
`/repo/src/utils/utils_user_part.c:46-74`. -/
def flagOf (k : Class) (occ : Nat) : Bool :=
  if k.valid then decide (k.prio ≠ pinned) else decide (occ ≠ 0)

/-- The value of `ocf_user_part_lst_cmp_valid`, `/repo/src/utils/utils_user_part.c:23-82`. -/
def cmp (cls : Nat → Class) (occ : Nat → Nat) (a b : Nat) : Int :=
  let v1 := rank (cls a) (occ a)
  let v2 := rank (cls b) (occ b)
  if v1 = v2 then (b : Int) - (a : Int) else v2 - v1

/-- `ocf_user_part_sort`, `/repo/src/utils/utils_user_part.h:93-96`, of a list holding `ids`: the
order becomes the sorted one (`IdxList.sorted`, proved to be the effect of `ocf_lst_sort` in
`IdxList.Rep.sort`) and every class in the list gets its eviction flag as a side effect of the
comparisons.
Simplification: the list has at least two entries, so that every entry takes part in a comparison
(all classes are in the list, `/repo/src/mngt/ocf_mngt_cache.c:183-203`). -/
def sortParts (lines : Nat) (cls : Nat → Class) (ids : List Nat) (occ : Nat → Nat) : Cfg :=
  { lines, cls, evictable := fun c => flagOf (cls c) (occ c),
    order := IdxList.sorted (cmp cls occ) ids }

/-- `ocf_user_part_get_min_size`, `/repo/src/utils/utils_user_part.h:59-70`.
Simplification: the result fits 32 bits (percentages are at most 100). -/
def Cfg.minSize (g : Cfg) (c : Nat) : Nat := (g.cls c).minPct * g.lines / 100

/-- `ocf_user_part_get_max_size`, `/repo/src/utils/utils_user_part.h:73-85`.
Simplification: as above. -/
def Cfg.maxSize (g : Cfg) (c : Nat) : Nat := ((g.cls c).maxPct * g.lines + 99) / 100

/-- A call of `ocf_lru_req_clines` (`/repo/src/ocf_lru.c:682-762`) made on behalf of a request:
source (`none` is the free list), number of lines asked for and received, and occupancy of the
source just before. -/
structure Ev where
  src : Option Nat
  asked : Nat
  got : Nat
  before : Nat
deriving DecidableEq, Repr

/-- Occupancies (`curr_size` of each `ocf_part`, `/repo/src/ocf_part.h:34-37`, and of the free
list) and the calls made so far, latest first. -/
structure St where
  occ : Nat → Nat
  free : Nat
  log : List Ev

/-- `ocf_part_get_occupancy`, `/repo/src/utils/utils_user_part.h:54-57`, or `ocf_lru_num_free`. -/
def St.size (s : St) : Option Nat → Nat
  | none => s.free
  | some c => s.occ c

/-- `ocf_lru_req_clines`, `/repo/src/ocf_lru.c:682-762`, for a request of class `t`, seen from
outside: it takes at most `n` lines out of class `src`, as many as it can lock (the number is the
answer `orc` of an oracle, one per call), and puts them into class `t`. What it does inside is
the subject of the modules `Lru` and `Evict`. -/
def take (orc : Nat → Nat) (t : Nat) (s : St) (src : Option Nat) (n : Nat) : St × Nat :=
  let got := min (orc s.log.length) (min n (s.size src))
  let occ1 : Nat → Nat := fun c => if src = some c then s.occ c - got else s.occ c
  ({ occ := fun c => if c = t then occ1 c + got else occ1 c
     free := if src = none then s.free - got else s.free
     log := ⟨src, n, got, s.size src⟩ :: s.log }, got)

/-- `ocf_evict_calculate`, `/repo/src/ocf_space.c:10-29`. -/
def calculate (g : Cfg) (s : St) (c toEvict : Nat) : Nat :=
  if s.occ c ≤ g.minSize c then 0
  else if toEvict > s.occ c - g.minSize c then s.occ c - g.minSize c
  else toEvict

/-- `ocf_user_part_overflow_size`, `/repo/src/utils/utils_user_part.h:103-114`. -/
def overflow (g : Cfg) (s : St) (c : Nat) : Nat :=
  if s.occ c > g.maxSize c then s.occ c - g.maxSize c else 0

/-- `ocf_evict_part_do`, `/repo/src/ocf_space.c:31-46`. -/
def evictPart (orc : Nat → Nat) (g : Cfg) (t : Nat) (s : St) (unmapped : Nat) : St × Nat :=
  let n := calculate g s t unmapped
  if n < unmapped then (s, 0) else take orc t s (some t) n

/-- The loop of `ocf_evict_user_partitions`, `/repo/src/ocf_space.c:48-104`, over the rest of the
list. -/
def evictUser (orc : Nat → Nat) (g : Cfg) (t : Nat) (need : Nat) (overflown : Bool)
    (maxPrio : Int) : List Nat → St → Nat → St × Nat
  | [], s, evicted => (s, evicted)
  | c :: cs, s, evicted =>
    if maxPrio > (g.cls c).prio then (s, evicted)
    else if !overflown && !g.evictable c then (s, evicted)
    else if overflown && overflow g s c == 0 then
      evictUser orc g t need overflown maxPrio cs s evicted
    else
      let n := calculate g s c (need - evicted)
      if n = 0 then evictUser orc g t need overflown maxPrio cs s evicted
      else
        let n := if overflown then min n (overflow g s c) else n
        let r := take orc t s (some c) n
        let evicted := evicted + r.2
        if evicted ≥ need then (r.1, evicted)
        else evictUser orc g t need overflown maxPrio cs r.1 evicted

/-- `ocf_remap_do`, `/repo/src/ocf_space.c:106-139`; `need` is `ocf_engine_unmapped_count`. -/
def remapDo (orc : Nat → Nat) (g : Cfg) (t : Nat) (s : St) (need : Nat) : St × Nat :=
  let r0 := if s.free > 0 then take orc t s none need else (s, 0)
  if r0.2 ≥ need then r0
  else
    let r1 := evictUser orc g t (need - r0.2) true pinned g.order r0.1 0
    if r0.2 + r1.2 ≥ need then (r1.1, r0.2 + r1.2)
    else
      let r2 := evictUser orc g t (need - (r0.2 + r1.2)) false (g.cls t).prio g.order r1.1 0
      (r2.1, r0.2 + r1.2 + r2.2)

/-- `ocf_user_part_has_space`, `/repo/src/utils/utils_user_part.h:116-126`; `repart` is the number
of lines the request will move over from other classes. -/
def hasSpace (g : Cfg) (t : Nat) (s : St) (repart need : Nat) : Bool :=
  decide (s.occ t + (repart + need) ≤ g.maxSize t)

/-- `ocf_space_managment_remap_do`, `/repo/src/ocf_space.c:141-157`, with `partEvict` the flag set
by the caller; the result is true for `LOOKUP_REMAPPED`. -/
def remap (orc : Nat → Nat) (g : Cfg) (t : Nat) (partEvict : Bool) (s : St) (need : Nat) :
    St × Bool :=
  let r := if partEvict then evictPart orc g t s need else remapDo orc g t s need
  (r.1, decide (need ≤ r.2))

/-- `ocf_prepare_clines_miss`, `/repo/src/engine/engine_common.c:440-458`, up to the mapping: a
class without space takes lines from itself only. -/
def prepareMiss (orc : Nat → Nat) (g : Cfg) (t : Nat) (s : St) (repart need : Nat) : St × Bool :=
  remap orc g t (!hasSpace g t s repart need) s need

/-! ### Several requests at a time -/

/-- Requests evicting from one class at the same time: occupancy of the class, and per request the
number of lines it may still take. Occupancy is read without a lock in `ocf_evict_calculate`
(`/repo/src/ocf_space.c:14`), lines are taken one by one in `ocf_lru_req_clines`
(`/repo/src/ocf_lru.c:716-759`) under list locks only. -/
structure Race where
  occ : Nat
  may : Nat → Nat

/-- Steps of requests evicting concurrently from one class of minimum size `m`
(`/repo/src/ocf_space.c:10-104`). -/
inductive RaceStep (m : Nat) : Race → Race → Prop
  /-- `ocf_evict_calculate`, `/repo/src/ocf_space.c:10-29`, by request `i` needing `n` lines. -/
  | calc (s : Race) (i n : Nat) (h : s.may i = 0) (hn : n ≤ s.occ - m) :
      RaceStep m s { s with may := fun j => if j = i then n else s.may j }
  /-- One line leaves the class, `/repo/src/ocf_lru.c:716-759`. -/
  | takeOne (s : Race) (i : Nat) (h : 0 < s.may i) (ho : 0 < s.occ) :
      RaceStep m s { occ := s.occ - 1, may := fun j => if j = i then s.may i - 1 else s.may j }
  /-- The request finds no more lines and stops, `/repo/src/ocf_lru.c:724-725`. -/
  | stop (s : Race) (i : Nat) : RaceStep m s { s with may := fun j => if j = i then 0 else s.may j }
  /-- Lines enter the class (`ocf_lru_repart`, `/repo/src/ocf_lru.c:286-294`). -/
  | enter (s : Race) (n : Nat) : RaceStep m s { s with occ := s.occ + n }

end Verif.Space
