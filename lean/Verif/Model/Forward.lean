import Verif.Lemma.Common

/-!
Model of forward tokens: the counter `cache_remaining` (or `core_remaining`), the error field and
the completion callback of a request forwarded as several device I/Os.
Sources: `/repo/src/ocf_request.h`, `/repo/src/ocf_request.c`.
-/

namespace Verif.Forward

/-- Where the holder of one token reference is inside `ocf_forward_end`
(`/repo/src/ocf_request.c:668-679`): `live` = I/O outstanding (or still submitting),
`loaded e r` = it has read `req->cache_error = e` and is about to store `e ?: r`,
`stored` = it is about to call `ocf_req_forward_cache_put`, `done` = it returned. -/
inductive Phase
  | live
  | loaded (e r : Int)
  | stored
  | done
deriving DecidableEq, Repr

/-- Not yet done. Counts as one reference (`/repo/src/ocf_request.h:557-566`). -/
def Phase.open : Phase → Bool
  | .done => false
  | _ => true

/-- The request fields used by one token (`/repo/src/ocf_request.h:170-173,246-250`) plus the
holders and two histories: codes stored in order, and arguments of callback invocations. -/
structure State where
  remaining : Int
  error : Int
  holders : List Phase
  reported : List Int
  callbacks : List Int
deriving DecidableEq, Repr

/-- After `ocf_req_forward_cache_init` and the first `ocf_req_forward_cache_get`
(`/repo/src/ocf_request.c:492-497`, `/repo/src/engine/engine_io.c:43-58`): one holder, the
submitter (or the only I/O). -/
def init : State := ⟨1, 0, [.live], [], []⟩

/-- `ocf_req_forward_cache_put`, `/repo/src/ocf_request.h:562-566`, by holder `i`.
(`env_atomic_dec_return` and, if it hits zero, the callback with the error read then; no other
holder exists at that point, so joining the two is no restriction.) -/
def put (s : State) (i : Nat) : State :=
  let r := s.remaining - 1
  { s with
    remaining := r
    holders := s.holders.set i .done
    callbacks := if r = 0 then s.callbacks ++ [s.error] else s.callbacks }

/-- Atomic steps. `get`: a live holder forwards another part (`_ocf_forward_get`,
`/repo/src/ocf_request.c:612-632`, `/repo/src/ocf_request.c:499-507`);
`load`/`store`: the two halves of `req->cache_error = req->cache_error ?: error`
(`/repo/src/ocf_request.c:673`), which is not an atomic operation; `put`: end of
`ocf_forward_end` (`:674`); `release`: the submitter's plain put
(`/repo/src/engine/engine_io.c:110`). -/
inductive Step : State → State → Prop
  | get (s : State) (i : Nat) : s.holders[i]? = some .live →
      Step s { s with remaining := s.remaining + 1, holders := s.holders ++ [.live] }
  | load (s : State) (i : Nat) (r : Int) : s.holders[i]? = some .live →
      Step s { s with holders := s.holders.set i (.loaded s.error r) }
  | store (s : State) (i : Nat) (e r : Int) : s.holders[i]? = some (.loaded e r) →
      Step s { s with error := if e ≠ 0 then e else r, holders := s.holders.set i .stored,
                      reported := s.reported ++ [r] }
  | put (s : State) (i : Nat) : s.holders[i]? = some .stored → Step s (put s i)
  | release (s : State) (i : Nat) : s.holders[i]? = some .live → Step s (put s i)

/-- The same steps with the error update done in one go: what happens if the parts of a request
complete one at a time (same source lines, `/repo/src/ocf_request.c:668-679`). -/
inductive SerialStep : State → State → Prop
  | get (s : State) (i : Nat) : s.holders[i]? = some .live →
      SerialStep s { s with remaining := s.remaining + 1, holders := s.holders ++ [.live] }
  | endErr (s : State) (i : Nat) (r : Int) : s.holders[i]? = some .live →
      SerialStep s { s with error := if s.error ≠ 0 then s.error else r,
                            holders := s.holders.set i .stored, reported := s.reported ++ [r] }
  | put (s : State) (i : Nat) : s.holders[i]? = some .stored → SerialStep s (put s i)
  | release (s : State) (i : Nat) : s.holders[i]? = some .live → SerialStep s (put s i)

end Verif.Forward
