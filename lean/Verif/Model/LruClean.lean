/-!
Model of the cleaning of one I/O class started by requests that found no clean line to evict.
Sources: `/repo/src/ocf_lru.c` (`ocf_lru_clean`, `ocf_lru_clean_end`), `/repo/src/ocf_part.h`.

Any number of callers; one step per atomic operation. The whole scan under the LRU list locks is a
sequence of steps of its own, since other threads take and release cache line locks meanwhile.
-/

namespace Verif.LruClean

/-- Where a caller of `ocf_lru_clean` is, `/repo/src/ocf_lru.c:591-652`; from `fly` on the code runs
in the completion of its cleaning order (`ocf_lru_clean_end`, `:573-589`). The list is what the run
still has locked for reading: a ghost, the code looks at the entries of the class instead. -/
inductive Pc where
  /-- not inside. -/
  | idle
  /-- management lock tested free (`:609-610`). -/
  | enter
  /-- reference taken (`:612`). -/
  | got
  /-- `cleaner_running` changed from 0 to 1 (`:617`), `i` entries written (`:633-639`). -/
  | scan (ls : List Nat)
  /-- scan over without a line (`:645`). -/
  | none
  /-- scan over, entries to be sorted (`:650`). -/
  | found (ls : List Nat)
  /-- cleaning order under way (`:651`). -/
  | fly (ls : List Nat)
  /-- completion, at entry `i` (`:580-585`). -/
  | unlock (i : Nat) (ls : List Nat)
  /-- all entries done, flag to be reset (`:587`). -/
  | reset
  /-- reference to be dropped (`:588`, `:619`, `:646`). -/
  | drop
deriving Repr, DecidableEq

/-- `struct ocf_part_cleaning_ctx`, `/repo/src/ocf_part.h:72-77`: reference counter with its freeze
flag, `cleaner_running`, the entries (`none` is `end_marker`); the number of read locks the cleaning
of this class has on each cache line; the callers. `leaked` (ghost) records that a run ended
without resetting the flag, `orders` (ghost) the cleaning orders issued. -/
structure St where
  frozen : Bool
  count : Nat
  running : Bool
  entries : List (Option Nat)
  locks : Nat → Nat
  pcs : List Pc
  leaked : Bool
  orders : List (List Nat)

/-- `OCF_EVICTION_CLEAN_SIZE`, `/repo/src/ocf_part.h:70`. -/
def cap : Nat := 32

/-- after `/repo/src/mngt/ocf_mngt_cache.c:887-893`, with `n` threads; the entries hold anything. -/
def init (n : Nat) (es : List (Option Nat)) : St :=
  ⟨false, 0, false, es, fun _ => 0, List.replicate n .idle, false, []⟩

/-- What the environment decides: the caller that moves, whether the management lock is free,
which line the scan finds (`lru_iter_cleaning_next`, `/repo/src/ocf_lru.c:546-571`, any line whose
read lock it gets), the order the sort produces (`/repo/src/utils/utils_cleaner.c:828-832`), freezing
by management (`/repo/src/utils/utils_cleaner.c:845-861`). -/
inductive Op where
  | call (i : Nat) (locked : Bool)
  | ref (i : Nat)
  | flag (i : Nat)
  | line (i : Nat) (l : Nat)
  | stop (i : Nat)
  | sorted (i : Nat) (ls : List Nat)
  | done (i : Nat)
  | next (i : Nat)
  | freeze (b : Bool)
deriving Repr, DecidableEq

/-- change the number of read locks on a line, `ocf_cache_line_try_lock_rd` and
`ocf_cache_line_unlock_rd` (`/repo/src/ocf_lru.c:555-556`, `:582-584`). -/
def bump (f : Nat → Nat) (l : Nat) (d : Nat → Nat) : Nat → Nat := fun x => if x = l then d (f x) else f x

/-- One step. `want` is the `count` argument of `ocf_lru_clean` (128 at the only call,
`/repo/src/engine/engine_common.c:532-535`). -/
def exec (want : Nat) (s : St) : Op → Option St
  | .call i locked =>
    match s.pcs[i]? with
    | some .idle => -- `/repo/src/ocf_lru.c:609-610`
      some { s with pcs := s.pcs.set i (if locked then .idle else .enter) }
    | _ => none
  | .ref i =>
    match s.pcs[i]? with
    | some .enter => -- `/repo/src/ocf_lru.c:612-615`
      if s.frozen then some { s with pcs := s.pcs.set i .idle }
      else some { s with count := s.count + 1, pcs := s.pcs.set i .got }
    | _ => none
  | .flag i =>
    match s.pcs[i]? with
    | some .got => -- `/repo/src/ocf_lru.c:617-621`
      if s.running then some { s with pcs := s.pcs.set i .drop }
      else some { s with running := true, pcs := s.pcs.set i (.scan []) }
    | _ => none
  | .line i l =>
    match s.pcs[i]? with
    | some (.scan ls) => -- `/repo/src/ocf_lru.c:632-639`
      if ls.length < min want cap then
        some { s with locks := bump s.locks l (· + 1), entries := s.entries.set ls.length (some l),
                      pcs := s.pcs.set i (.scan (ls ++ [l])) }
      else none
    | _ => none
  | .stop i =>
    match s.pcs[i]? with
    | some (.scan ls) => -- `/repo/src/ocf_lru.c:634-636`, `:645`
      some { s with
        entries := if ls.length < min want cap then s.entries.set ls.length none else s.entries,
        pcs := s.pcs.set i (if ls.length = 0 then .none else .found ls) }
    | _ => none
  | .sorted i ls' =>
    match s.pcs[i]? with
    | some (.found ls) => -- `/repo/src/ocf_lru.c:650-651`
      if ls'.isPerm ls then
        some { s with entries := ls'.map some ++ s.entries.drop ls'.length,
                      pcs := s.pcs.set i (.fly ls'), orders := s.orders ++ [ls'] }
      else none
    | _ => none
  | .done i =>
    match s.pcs[i]? with
    | some (.fly ls) => -- `/repo/src/ocf_lru.c:573-577`
      some { s with pcs := s.pcs.set i (.unlock 0 ls) }
    | _ => none
  | .next i =>
    match s.pcs[i]? with
    | some .none => -- `/repo/src/ocf_lru.c:645-648`
      some { s with leaked := true, pcs := s.pcs.set i .drop }
    | some (.unlock k ls) => -- `/repo/src/ocf_lru.c:579-585`
      if k < cap then
        match s.entries[k]? with
        | some (some l) =>
          some { s with locks := bump s.locks l (· - 1), pcs := s.pcs.set i (.unlock (k + 1) ls.tail) }
        | _ => some { s with pcs := s.pcs.set i .reset }
      else some { s with pcs := s.pcs.set i .reset }
    | some .reset => -- `/repo/src/ocf_lru.c:587`
      some { s with running := false, pcs := s.pcs.set i .drop }
    | some .drop => -- `/repo/src/ocf_lru.c:588`, `:619`, `:646`
      some { s with count := s.count - 1, pcs := s.pcs.set i .idle }
    | _ => none
  | .freeze b => some { s with frozen := b } -- `/repo/src/utils/utils_cleaner.c:845-861`

/-- a run of steps, `/repo/src/ocf_lru.c:573-652`. -/
inductive Run (want : Nat) (s : St) : List Op → St → Prop where
  | nil : Run want s [] s
  | snoc {ops : List Op} {s' s'' : St} {o : Op} :
      Run want s ops s' → exec want s' o = some s'' → Run want s (ops ++ [o]) s''

end Verif.LruClean
