import Verif.Model.Collision

/-!
Model of the n-hit promotion policy: the table of tracked core lines and the decision to admit a request.
Sources: `/repo/src/promotion/nhit/nhit_hash.c`, `/repo/src/promotion/nhit/nhit.c`.

Simplifications. The number of entries of the ring is below 2^32, so that indices need no width. Memory is
available. A bucket lock makes lookup, counting and replacing single steps: these touch only slots of the
buckets locked.
-/

namespace Verif.Nhit

open Verif.Collision (upd)

/-- A core line: core id and core line number (`/repo/src/promotion/nhit/nhit_hash.c:88-96`). -/
abbrev Key := Nat × Nat

/-- `struct nhit_hash` (`/repo/src/promotion/nhit/nhit_hash.c:98-108`) with `struct nhit_list_elem`
(`/repo/src/promotion/nhit/nhit_hash.c:88-96`): `N` is `rb_entries`, `H` `hash_entries`, `key` is `none` for a slot
whose core id is `OCF_CORE_ID_INVALID`, `ptr` is `rb_pointer`. -/
structure Table where
  N : Nat
  H : Nat
  map : Nat → Nat
  key : Nat → Option Key
  cnt : Nat → Nat
  prev : Nat → Nat
  next : Nat → Nat
  valid : Nat → Bool
  ptr : Nat

/-- `calculate_hash_buckets` (`/repo/src/promotion/nhit/nhit_hash.c:110-113`). -/
def buckets (size : Nat) : Nat := (size / 4 + 4099 - 1) / 4099 * 4099 - 1

/-- `nhit_hash_init` (`/repo/src/promotion/nhit/nhit_hash.c:130-200`). -/
def init (N H : Nat) : Table :=
  { N, H, map := fun _ => N, key := fun _ => none, cnt := fun _ => 0, prev := fun _ => 0, next := fun _ => 0,
    valid := fun _ => true, ptr := 0 }

/-- `hash_function` (`/repo/src/promotion/nhit/nhit_hash.c:216-223`) for a valid core, 64 bits wide. -/
def hashOf (H : Nat) (k : Key) : Nat := (k.2 * 4099 + k.1) % 2 ^ 64 % H

/-- The loop of `core_line_lookup` (`/repo/src/promotion/nhit/nhit_hash.c:233-242`) from slot `c`. The first
argument limits the number of rounds: `none` means that the loop has not ended by then. -/
def walk (t : Table) (k : Key) : Nat → Nat → Option (Option Nat)
  | 0, _ => none
  | n + 1, c =>
    if c = t.N then some none
    else if t.key c = some k then some (some c)
    else walk t k n (t.next c)

/-- `core_line_lookup` (`/repo/src/promotion/nhit/nhit_hash.c:225-245`), cut off after `n` rounds. -/
def lookup (t : Table) (k : Key) (n : Nat) : Option (Option Nat) := walk t k n (t.map (hashOf t.H k))

/-- The slot found, with enough rounds (`/repo/src/promotion/nhit/nhit_hash.c:384-389`). -/
def find (t : Table) (k : Key) : Option Nat := (lookup t k (t.N + 1)).join

/-- `nhit_hash_query` (`/repo/src/promotion/nhit/nhit_hash.c:374-396`); the counter is 32 bits wide. -/
def query (t : Table) (k : Key) : Table × Option Nat :=
  match find t k with
  | none => (t, none)
  | some c =>
    let n := (t.cnt c + 1) % 2 ^ 32
    ({ t with cnt := upd t.cnt c n }, some n)

/-- `nhit_hash_set_occurences` (`/repo/src/promotion/nhit/nhit_hash.c:398-416`). -/
def setOcc (t : Table) (k : Key) (n : Nat) : Table :=
  match find t k with
  | none => t
  | some c => { t with cnt := upd t.cnt c n }

/-- `get_rb_slot` (`/repo/src/promotion/nhit/nhit_hash.c:247-265`): the slot and whether it may be used. -/
def getSlot (t : Table) : Table × Nat × Bool :=
  ({ t with valid := upd t.valid t.ptr false, ptr := (t.ptr + 1) % t.N }, t.ptr, t.valid t.ptr)

/-- `commit_rb_slot` (`/repo/src/promotion/nhit/nhit_hash.c:267-274`). -/
def commit (t : Table) (c : Nat) : Table := { t with valid := upd t.valid c true }

/-- `collision_remove` (`/repo/src/promotion/nhit/nhit_hash.c:276-295`). -/
def remove (t : Table) (c : Nat) : Table :=
  match t.key c with
  | none => t
  | some k =>
    let h := hashOf t.H k
    let nx := t.next c
    let pv := t.prev c
    { t with
      key := upd t.key c none
      next := if pv ≠ t.N then upd t.next pv nx else t.next
      prev := if nx ≠ t.N then upd t.prev nx pv else t.prev
      map := if t.map h = c then upd t.map h nx else t.map }

/-- `collision_insert_new` (`/repo/src/promotion/nhit/nhit_hash.c:297-315`). -/
def insertNew (t : Table) (c : Nat) (k : Key) : Table :=
  let h := hashOf t.H k
  let old := t.map h
  let prev1 := upd t.prev c t.N
  { t with
    key := upd t.key c (some k)
    next := upd t.next c old
    prev := if old ≠ t.N then upd prev1 old c else prev1
    cnt := upd t.cnt c 1
    map := upd t.map h c }

/-- The part of `nhit_hash_insert` under the bucket locks (`/repo/src/promotion/nhit/nhit_hash.c:366-367`). -/
def replace (t : Table) (c : Nat) (k : Key) : Table := insertNew (remove t c) c k

/-- `nhit_hash_insert` (`/repo/src/promotion/nhit/nhit_hash.c:350-372`) without other threads. -/
def insert (t : Table) (k : Key) : Table :=
  match getSlot t with
  | (t, _, false) => t
  | (t, c, true) => commit (replace t c k) c

/-- Order in which `write_lock_hashes` (`/repo/src/promotion/nhit/nhit_hash.c:317-333`) takes the bucket locks for
a new core line and the one in the slot, if any; an empty slot has hash `H`. -/
def lockOrder (H : Nat) (k : Key) (old : Option Key) : List Nat :=
  let h1 := hashOf H k
  let h2 := match old with
    | none => H
    | some k => hashOf H k
  (if min h1 h2 ≠ H then [min h1 h2] else []) ++
  (if max h1 h2 ≠ H ∧ min h1 h2 ≠ max h1 h2 then [max h1 h2] else [])

/-- Locks released by `write_unlock_hashes` (`/repo/src/promotion/nhit/nhit_hash.c:335-348`). -/
def unlockOrder (H : Nat) (k : Key) (old : Option Key) : List Nat :=
  let h1 := hashOf H k
  let h2 := match old with
    | none => H
    | some k => hashOf H k
  (if h1 ≠ H then [h1] else []) ++ (if h2 ≠ H ∧ h1 ≠ h2 then [h2] else [])

/-- `core_line_should_promote` (`/repo/src/promotion/nhit/nhit.c:194-214`). -/
def access (t : Table) (thr : Nat) (k : Key) : Table × Bool :=
  match query t k with
  | (t, some n) => (t, decide (thr ≤ n))
  | (t, none) => (insert t k, false)

/-- The loop of `nhit_req_should_promote` (`/repo/src/promotion/nhit/nhit.c:235-243`). -/
def accessAll (t : Table) (thr : Nat) : List Key → Table × Bool
  | [] => (t, true)
  | k :: ks =>
    let r := access t thr k
    let q := accessAll r.1 thr ks
    (q.1, r.2 && q.2)

/-- `nhit_req_should_promote` (`/repo/src/promotion/nhit/nhit.c:216-248`) for the core lines `ks` of a request
with `mapped` of them cached, of a cache of `lines` lines of which `occupied` are in use. -/
def shouldPromote (t : Table) (thr trigger lines occupied mapped : Nat) (ks : List Key) : Table × Bool :=
  if occupied < (trigger * lines + 100 - 1) / 100 then (t, true) else
  let r := accessAll t thr ks
  (r.1, r.2 || decide (mapped ≠ 0))

/-- `nhit_req_purge` (`/repo/src/promotion/nhit/nhit.c:179-192`). -/
def purge (t : Table) (ks : List Key) : Table := ks.foldl (fun t k => setOcc t k 0) t

/-- Threads: core lines that were looked up, not found and are about to be inserted; slots taken, with the new core
line and the one read from the slot (`/repo/src/promotion/nhit/nhit_hash.c:357-362`); slots replaced but not yet
committed (`/repo/src/promotion/nhit/nhit_hash.c:369-371`). Only for specification: the requests of each core line. -/
structure St where
  t : Table
  pend : List Key
  held : List (Nat × Key × Option Key)
  done : List Nat
  reqs : Key → Nat
  admitted : List (Key × Nat)

/-- Steps of any number of threads running `core_line_should_promote` and `core_line_purge`
(`/repo/src/promotion/nhit/nhit.c:173-214`). -/
inductive Step (thr : Nat) : St → St → Prop where
  /-- `nhit_hash_query` finds the core line (`/repo/src/promotion/nhit/nhit.c:205-209`) -/
  | hit (s : St) (k : Key) (n : Nat) : (query s.t k).2 = some n →
      Step thr s { s with
        t := (query s.t k).1
        reqs := fun j => if j = k then s.reqs j + 1 else s.reqs j
        admitted := if thr ≤ n then (k, s.reqs k + 1) :: s.admitted else s.admitted }
  /-- it does not (`/repo/src/promotion/nhit/nhit.c:211`) -/
  | miss (s : St) (k : Key) : (query s.t k).2 = none →
      Step thr s { s with
        pend := k :: s.pend
        reqs := fun j => if j = k then s.reqs j + 1 else s.reqs j }
  /-- `get_rb_slot` (`/repo/src/promotion/nhit/nhit_hash.c:357-362`) -/
  | take (s : St) (k : Key) : k ∈ s.pend →
      Step thr s { s with
        t := (getSlot s.t).1
        pend := s.pend.erase k
        held := if (getSlot s.t).2.2 then ((getSlot s.t).2.1, k, s.t.key (getSlot s.t).2.1) :: s.held else s.held }
  /-- the slot is replaced under the locks (`/repo/src/promotion/nhit/nhit_hash.c:364-369`) -/
  | replace (s : St) (x : Nat × Key × Option Key) : x ∈ s.held →
      Step thr s { s with t := replace s.t x.1 x.2.1, held := s.held.erase x, done := x.1 :: s.done }
  /-- `commit_rb_slot` (`/repo/src/promotion/nhit/nhit_hash.c:371`) -/
  | commit (s : St) (c : Nat) : c ∈ s.done →
      Step thr s { s with t := commit s.t c, done := s.done.erase c }
  /-- `core_line_purge` (`/repo/src/promotion/nhit/nhit.c:173-177`) -/
  | purge (s : St) (k : Key) : Step thr s { s with t := setOcc s.t k 0 }

/-- After `nhit_init` (`/repo/src/promotion/nhit/nhit.c:41-82`). -/
def start (N H : Nat) : St := ⟨init N H, [], [], [], fun _ => 0, []⟩

end Verif.Nhit
