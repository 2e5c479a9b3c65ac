/-! Model of the flush of the metadata a request touched, `/repo/src/metadata/metadata_raw.c`: which
lines are marked, which pages of the collision segment are written, what they contain and when the
request is told.

The write of a range of pages (`metadata_io_write_i_asynch`) is one transfer here; its parts are in
`Verif/Model/MetaIo.lean`.  The log messages, the memory of the context and of the page table and the
`ocf_metadata_error` of `/repo/src/metadata/metadata_raw.c:456` are left out. -/

namespace Verif.MetaFlush

/-- What is used of `struct ocf_metadata_raw`, `/repo/src/metadata/metadata_raw.h:59-97`. -/
structure Raw where
  entriesInPage : Nat
  offset : Nat

/-- What is used of `struct ocf_map_info`, `/repo/src/ocf_request.h:72-103`. -/
structure MapInfo where
  coll : Nat
  flush : Bool
deriving DecidableEq

/-- The map of a request and `info.flush_metadata`, `/repo/src/ocf_request.h:50`. -/
structure Req where
  map : List MapInfo
  flushMeta : Bool
deriving DecidableEq

/-- The new state of a line, `/repo/src/metadata/metadata.h:24-27`. -/
inductive To
  | invalid
  | valid
  | clean
  | dirty
deriving DecidableEq

/-- `_raw_ram_flush_mark`, `/repo/src/metadata/metadata_raw.c:428-436`. -/
def flushMark (req : Req) (i : Nat) (to : To) : Req :=
  if to = .dirty ∨ to = .clean then
    { map := req.map.modify i fun m => { m with flush := true }, flushMeta := true }
  else req

/-- `_RAW_RAM_PAGE`, `/repo/src/metadata/metadata_raw.c:73-74`. -/
def page (raw : Raw) (line : Nat) : Nat := line / raw.entriesInPage

/-- `__raw_ram_flush_do_asynch_add_pages`, `/repo/src/metadata/metadata_raw.c:524-540`. -/
def addPages (raw : Raw) : List MapInfo → List Nat
  | [] => []
  | m :: r => if m.flush then page raw m.coll :: addPages raw r else addPages raw r

/-- `env_sort` with `_raw_ram_flush_do_page_cmp`, `/repo/src/metadata/metadata_raw.c:510-522`,
`:594-595`: `sorted` is `tab` in ascending order. -/
def SortOf (tab sorted : List Nat) : Prop := sorted.Perm tab ∧ sorted.Pairwise (· ≤ ·)

/-- The inner loop, `/repo/src/metadata/metadata_raw.c:602-616`, at page `cur` with the rest of the
table: the number of pages of the run and the rest of the table after it. -/
def grow (cur count : Nat) : List Nat → Nat × List Nat
  | [] => (count, [])
  | p :: r =>
    if cur = p then grow p count r
    else if (cur + 1) % 2 ^ 32 ≠ p then (count, p :: r)
    else grow p (count + 1) r

/-- The outer loop, `/repo/src/metadata/metadata_raw.c:597-632`: the first page and the number of
pages of each write; `fuel` is the length of the table. -/
def runsFuel : Nat → List Nat → List (Nat × Nat)
  | 0, _ => []
  | _ + 1, [] => []
  | fuel + 1, p :: r => (p, (grow p 1 r).1) :: runsFuel fuel (grow p 1 r).2

/-- All writes of a flush, `/repo/src/metadata/metadata_raw.c:597-632`. -/
def runs (sorted : List Nat) : List (Nat × Nat) := runsFuel sorted.length sorted

/-- The pages of the cache device one write covers, `/repo/src/metadata/metadata_raw.c:621-622`. -/
def devPages (raw : Raw) (run : Nat × Nat) : List Nat := List.range' (raw.offset + run.1) run.2

/-- `_raw_ram_flush_do_asynch_fill`, `/repo/src/metadata/metadata_raw.c:473-504`: the entries put in
page `p` of the device; the rest of the page is zeroed (`none`). -/
def fill {α : Type} (raw : Raw) (mem : Nat → α) (p : Nat) : Nat → Option α := fun j =>
  if j < raw.entriesInPage then some (mem ((p - raw.offset) * raw.entriesInPage + j)) else none

/-- The device after the pages were written, `/repo/src/metadata/metadata_raw.c:621-626`. -/
def write {α : Type} (raw : Raw) (mem : Nat → α) (dev : Nat → Nat → Option α) (ps : List Nat) :
    Nat → Nat → Option α := fun p => if p ∈ ps then fill raw mem p else dev p

/-! ## The course of a flush -/

/-- Where `_raw_ram_flush_do_asynch` is: in the loop (`/repo/src/metadata/metadata_raw.c:598-632`),
after it (`:634`) or returned (`:639`). -/
inductive Pc
  | loop
  | last
  | done
deriving DecidableEq

/-- A flush under way: the writes to be started, those started and not yet finished, those finished,
`flush_req_cnt`, `ctx->error` and (added) the calls of `complete` with the error;
`/repo/src/metadata/metadata_raw.c:441-447`. -/
structure State where
  pc : Pc
  todo : List (Nat × Nat)
  flying : List (Nat × Nat)
  finished : List (Nat × Nat)
  cnt : Nat
  error : Int
  result : Int
  calls : List Int
deriving DecidableEq

/-- The state at the first round of the loop, `/repo/src/metadata/metadata_raw.c:574`, `:597`. -/
def start (sorted : List Nat) : State := ⟨.loop, runs sorted, [], [], 1, 0, 0, []⟩

/-- `_raw_ram_flush_do_asynch_io_complete`, `/repo/src/metadata/metadata_raw.c:449-468`: storing the
error and decrementing the counter are one step. -/
def ioComplete (st : State) (e : Int) : State :=
  let st := if e ≠ 0 then { st with error := e } else st
  let st := { st with cnt := st.cnt - 1 }
  if st.cnt = 0 then { st with calls := st.calls ++ [st.error] } else st

/-- The steps.  `issue e`: one round of the loop, `metadata_io_write_i_asynch` returning `e`
(`/repo/src/metadata/metadata_raw.c:619-631`); when it returns an error it did not start anything
(`/repo/src/metadata/metadata_io.c:397-399`, `:453-459`).  `leave`: the end of the loop.  `final`:
the last call of the completion (`/repo/src/metadata/metadata_raw.c:634`).  `finish run e`: a write
finishes with error `e`, possibly before the call that started it returns. -/
inductive Op
  | issue (e : Int)
  | leave
  | final
  | finish (run : Nat × Nat) (e : Int)

/-- Effect of a step, `none` if it cannot be taken; `/repo/src/metadata/metadata_raw.c:598-634`. -/
def exec (st : State) : Op → Option State
  | .issue e =>
    match st.pc, st.todo with
    | .loop, run :: r =>
      if e = 0 then some { st with todo := r, flying := run :: st.flying, cnt := st.cnt + 1 }
      else some { st with pc := .last, cnt := st.cnt + 1, result := e }
    | _, _ => none
  | .leave =>
    match st.pc, st.todo with
    | .loop, [] => some { st with pc := .last }
    | _, _ => none
  | .final => if st.pc = .last then some (ioComplete { st with pc := .done } st.result) else none
  | .finish run e =>
    if run ∈ st.flying then
      some (ioComplete { st with flying := st.flying.erase run, finished := run :: st.finished } e)
    else none

/-- A run of steps, `/repo/src/metadata/metadata_raw.c:542-640`. -/
inductive Run : State → List Op → State → Prop
  | nil (st : State) : Run st [] st
  | snoc {st st' st'' : State} {ops : List Op} {op : Op} : Run st ops st' →
      exec st' op = some st'' → Run st (ops ++ [op]) st''

/-- The calls of `complete` before the loop, `/repo/src/metadata/metadata_raw.c:559-585`: nothing to
flush, no memory for the context (`ctx`), no memory for the table of pages (`tab`, needed for more than `MAX_STACK_TAB_SIZE` lines,
`/repo/src/metadata/metadata_raw.h:356`); the error is not told apart (`-1`); `none` if the
loop is reached. -/
def before (req : Req) (ctx tab : Bool) : Option (List Int) :=
  if ¬ req.flushMeta then some [0]
  else if ¬ ctx then some [-1]
  else if 32 < req.map.length ∧ ¬ tab then some [-1]
  else none

end Verif.MetaFlush
