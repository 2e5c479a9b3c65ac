/-! Submissions to the cache device by the library itself: flush, discard, zeroing, one page (C59).

One submission with its parts; parts complete at any moment from the instant they are forwarded, also before
the call that forwards them returns. A completion is one step (storing the error and dropping the reference;
the race between two stores is in `Verif.Forward`, C24). Addresses and lengths are numbers; the end of the
range is taken not to overflow 64 bits. -/

namespace Verif.Submit

/-- What is submitted.
Source: /repo/src/utils/utils_io.c:29-30, /repo/src/utils/utils_io.c:55-56, /repo/src/utils/utils_io.c:93-94,
/repo/src/utils/utils_io.c:150-151. -/
inductive Kind
  | flush | discard (addr len : Nat) | zeros (addr len : Nat) | page (write : Bool) (addr : Nat)
  deriving DecidableEq, Repr

/-- Where the submitter is: before the call, before forwarding the only part, in the loop with address and
length left, returned.
Source: /repo/src/utils/utils_io.c:29-125, /repo/src/utils/utils_io.c:150-199. -/
inductive Pc
  | start | one | loop (a n : Nat) | ret
  deriving DecidableEq, Repr

/-- The state. `cnt`: `cache_remaining`; `err`: `cache_error`; `cb`: the callback is set; `out`: parts
forwarded and not complete; `parts`: parts forwarded; `ctx`, `req`, `dat`: context, request and page are
allocated; `buf`, `data`: contents of the caller's buffer and of the page; `rep`: calls of the caller's
completion. Ghosts: `errs` results of the parts in the order they completed, `got` what the device returned,
`sent` contents of the page when forwarded, `ok` the allocations succeeded, `crash` a NULL function was called,
`bad` something freed was used.
Source: /repo/src/utils/utils_io.c:15-18, /repo/src/utils/utils_io.c:127-132, /repo/src/ocf_request.h:246-250. -/
structure St where
  kind : Kind
  pc : Pc := .start
  cnt : Nat := 0
  err : Int := 0
  cb : Bool := false
  out : Nat := 0
  parts : List (Nat × Nat) := []
  ctx : Bool := false
  req : Bool := false
  dat : Bool := false
  buf : Nat := 0
  data : Nat := 0
  rep : List Int := []
  errs : List Int := []
  got : Nat := 0
  sent : List Nat := []
  ok : Bool := false
  crash : Bool := false
  bad : Bool := false
  deriving DecidableEq, Repr

/-- `-OCF_ERR_NO_MEM`.
Source: /repo/inc/ocf_err.h:18-34. -/
def noMem : Int := -1000004

/-- Largest part of a discard: `(uint32_t)~0 & ~sector_mask`.
Source: /repo/src/utils/utils_io.c:60-61. -/
def maxDiscard : Nat := (2 ^ 32 - 1) - (2 ^ 9 - 1)

/-- Largest part of a zeroing: `~((uint32_t)PAGE_SIZE - 1)`.
Source: /repo/src/utils/utils_io.c:98. -/
def maxZeros : Nat := (2 ^ 32 - 1) - (4096 - 1)

/-- Which allocations succeed: context, request, page.
Source: /repo/src/utils/utils_io.c:35-47, /repo/src/utils/utils_io.c:158-177. -/
structure In where
  ctx : Bool
  req : Bool
  dat : Bool
  deriving DecidableEq, Repr

/-- The submission fails: completion called with an error, what was allocated freed.
Source: /repo/src/utils/utils_io.c:35-47, /repo/src/utils/utils_io.c:194-199. -/
def fail (s : St) : St := { s with pc := .ret, rep := s.rep ++ [noMem], ctx := false, req := false, dat := false }

/-- The call up to its first forwarding. Zeroing does not set the callback (there is no
`ocf_req_forward_cache_init`); the request is zeroed memory, so it is NULL. A loop takes one reference itself.
Source: /repo/src/utils/utils_io.c:35-50, /repo/src/utils/utils_io.c:64-81, /repo/src/utils/utils_io.c:101-115,
/repo/src/utils/utils_io.c:158-188, /repo/src/ocf_request.c:101-116, /repo/src/ocf_request.c:492-497. -/
def submit (s : St) (i : In) : St :=
  if !i.ctx then fail s else
  let s := { s with ctx := true }
  if !i.req then fail s else
  let s := { s with req := true }
  match s.kind with
  | .flush => { s with cb := true, pc := .one, ok := true }
  | .discard a n => { s with cb := true, cnt := 1, pc := .loop a n, ok := true }
  | .zeros a n => { s with cnt := 1, pc := .loop a n, ok := true }
  | .page w _ =>
    if !i.dat then fail s else
    { s with dat := true, data := if w then s.buf else 0, cb := true, pc := .one, ok := true }

/-- `ocf_submit_cache_end`, `ocf_submit_cache_page_end`. A page read is copied to the caller's buffer whatever
the error.
Source: /repo/src/utils/utils_io.c:20-27, /repo/src/utils/utils_io.c:134-148. -/
def complete (s : St) : St :=
  let s := { s with bad := s.bad || !s.ctx || !s.req }
  let s := match s.kind with
    | .page false _ => { s with buf := s.data }
    | _ => s
  { s with rep := s.rep ++ [s.err], ctx := false, req := false, dat := false }

/-- `ocf_req_forward_cache_put`.
Source: /repo/src/ocf_request.h:562-566. -/
def put (s : St) : St :=
  let s := { s with bad := s.bad || !s.req, cnt := s.cnt - 1 }
  if s.cnt = 0 then (if s.cb then complete s else { s with crash := true }) else s

/-- A part is forwarded: a reference is taken and the device is called.
Source: /repo/src/ocf_request.c:499-536. -/
def forward (s : St) (a n : Nat) : St :=
  { s with bad := s.bad || !s.req, cnt := s.cnt + 1, out := s.out + 1, parts := s.parts ++ [(a, n)]
           sent := s.sent ++ [s.data] }

/-- Length of the next part. For zeroing it is stored in 32 bits.
Source: /repo/src/utils/utils_io.c:83, /repo/src/utils/utils_io.c:117. -/
def bytes (k : Kind) (n : Nat) : Nat :=
  match k with
  | .zeros _ _ => min n maxZeros % 2 ^ 32
  | _ => min n maxDiscard

/-- The submitter's next action.
Source: /repo/src/utils/utils_io.c:52, /repo/src/utils/utils_io.c:82-90, /repo/src/utils/utils_io.c:116-124,
/repo/src/utils/utils_io.c:190. -/
def act (s : St) : St :=
  match s.pc with
  | .start => s
  | .one => match s.kind with
    | .page _ a => { forward s a 4096 with pc := .ret }
    | _ => { forward s 0 0 with pc := .ret }
  | .loop a n =>
    if n = 0 then { put s with pc := .ret }
    else { forward s a (bytes s.kind n) with pc := .loop (a + bytes s.kind n) (n - bytes s.kind n) }
  | .ret => s

/-- `ocf_forward_end`: a part completes with a result; a read that succeeds fills the page.
Source: /repo/src/ocf_request.c:668-679. -/
def done (s : St) (e : Int) (v : Nat) : St :=
  let s := match s.kind with
    | .page false _ => if e = 0 then { s with data := v, got := v } else s
    | _ => s
  put { s with out := s.out - 1, errs := s.errs ++ [e], err := if s.err ≠ 0 then s.err else e }

/-- Single steps of a submission. After a crash there is none.
Source: /repo/src/utils/utils_io.c:20-199, /repo/src/ocf_request.c:492-536, /repo/src/ocf_request.c:668-679. -/
inductive Step : St → St → Prop
  | submit (s : St) (i : In) : s.pc = .start → Step s (submit s i)
  | act (s : St) : s.crash = false → s.pc ≠ .start → s.pc ≠ .ret → Step s (act s)
  | done (s : St) (e : Int) (v : Nat) : s.crash = false → 0 < s.out → Step s (done s e v)

/-- Before the call.
Source: /repo/src/utils/utils_io.c:29-30, /repo/src/utils/utils_io.c:55-56, /repo/src/utils/utils_io.c:93-94,
/repo/src/utils/utils_io.c:150-151. -/
def Init (s : St) : Prop := ∃ k b, s = { kind := k, buf := b }

end Verif.Submit
