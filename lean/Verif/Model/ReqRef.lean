/-!
Model of the references held on a request of a core (`req->ref_count`) by the code that handles it.
Sources: `/repo/src/ocf_core.c`, `/repo/src/ocf_request.c`, `/repo/src/engine/*.c`.

Every C function on the path of a request is a program: what it does to the references, to the counter of
parts (`req_remaining`), to the handler, which functions it calls, which it hands to somebody else, and where it
uses the request. Conditions on the state of the cache are free choices. A function handed to a queue, a volume, the
metadata flush, the cleaner or a waiting list runs once, in a thread of its own, at any time from then on (that each
of these calls it once is C24, C25, C15, C46, C07); running it at once is one of the orders. Requests do not share
references, so one request is enough.
-/

namespace Verif.ReqRef

/-- The functions, in the order of `body` below; places in the comments there: `/repo/src/ocf_core.c:210-404`,
`/repo/src/engine/cache_engine.c:200-256` and the engines. -/
inductive Fn where
  | reqComplete | submitIo | submitIoFast | submitFlush | submitDiscard | hndlReq | hndlFast | hndlDiscard | hndlFlush | onResume
  | refresh | cleanEnd | invalidate | invalidateDo | invalidateEnd | backfill | backfillDo | backfillEnd | backfillUpdate | rdHitEnd
  | rdMissEnd | rdSubmitHit | rdSubmitMiss | rdDo | readGeneric | ptEnd | ptDo | readPt | wtFlushEnd | wtFlush
  | wtPart | wtCacheEnd | wtCoreEnd | wtSubmit | wtDo | writeWt | wbFlushEnd | wbFlush | wbEnd | wbSubmit
  | wbDo | writeWb | wiNext | wiFlushEnd | wiUpdate | wiCoreEnd | wiCore | wiResume | writeWi | writeWa
  | woCacheEnd | woCacheDo | woCoreEnd | woDo | readWo | fastEnd | fastDo | readFast | writeFast | d2cEnd
  | d2cIo | d2cFlush | d2cDiscard | flushEnd | flush | discEnd | discCore | discFlushEnd | discFlush | discFinish
  | discPart | discStepDo | discResume | discStep | discard
deriving DecidableEq, Repr

/-- Programs. `/repo/src/ocf_request.c:375-410` for `get` and `put`. -/
inductive Prog where
  /-- return from the function; the value says which continuation of the caller is taken,
  `/repo/src/ocf_core.c:306-312`. A thread whose first function returned is over. -/
  | ret (b : Bool)
  /-- `ocf_req_get`, `/repo/src/ocf_request.c:377-382`. -/
  | get (k : Prog)
  /-- `ocf_req_put`, `/repo/src/ocf_request.c:384-408`. -/
  | put (k : Prog)
  /-- the request is read or written, as in `/repo/src/engine/engine_rd.c:160-161`. -/
  | use (k : Prog)
  /-- `ocf_io_end_func`, `/repo/src/ocf_request.c:436-442`: from here on the owner may put its reference. -/
  | endCb (k : Prog)
  /-- call; `yes`, `no`: what follows, by the value returned, `/repo/src/ocf_core.c:306-322`. -/
  | call (f : Fn) (yes no : Prog)
  /-- `f` is handed over, to be called once, as in `/repo/src/engine/engine_pt.c:42`. -/
  | spawn (f : Fn) (k : Prog)
  /-- `req->engine_handler = f`, as in `/repo/src/engine/engine_rd.c:191`. -/
  | setH (f : Fn) (k : Prog)
  /-- `req->engine_handler` is one of these, by conditions left out, `/repo/src/engine/cache_engine.c:206-207`. -/
  | chooseH (fs : List Fn) (k : Prog)
  /-- `ocf_queue_push_req`, `/repo/src/ocf_queue.c:256-286`. -/
  | pushH (k : Prog)
  /-- `req->engine_handler(req)`, `/repo/src/ocf_queue.c:219-222`, `/repo/src/engine/engine_common.c:625`. -/
  | callH (k : Prog)
  /-- `req->priv = req->engine_handler`, `/repo/src/engine/engine_common.c:651`. -/
  | savePriv (k : Prog)
  /-- `req->engine_handler = req->priv`, `/repo/src/engine/engine_common.c:622-623`. -/
  | loadPriv (k : Prog)
  /-- a condition left out, as in `/repo/src/engine/engine_rd.c:31`. -/
  | either (a b : Prog)
  /-- `env_atomic_set(&req->req_remaining, n)`, `/repo/src/engine/engine_wt.c:146`. -/
  | remSet (n : Nat) (k : Prog)
  /-- `env_atomic_inc(&req->req_remaining)`, `/repo/src/engine/engine_discard.c:114`. -/
  | remInc (k : Prog)
  /-- `env_atomic_dec_return(&req->req_remaining)`, `/repo/src/engine/engine_wt.c:90`. -/
  | remDec (zero other : Prog)
deriving Repr

/-- `return`, as in `/repo/src/engine/engine_rd.c:166`. -/
def ok : Prog := .ret true

/-- `return OCF_FAST_PATH_NO` or an error, `/repo/src/engine/engine_fast.c:148`, `/repo/src/engine/cache_engine.c:210`. -/
def no : Prog := .ret false

/-- the label `err`, `/repo/src/ocf_core.c:324-326`. -/
def fail : Prog := .endCb (.put ok)

/-- call of a function whose value is not looked at, as in `/repo/src/engine/engine_rd.c:204`. -/
def void (f : Fn) (k : Prog) : Prog := .call f k k

/-- unlock, complete, put: `/repo/src/engine/engine_rd.c:38-40` and others alike. -/
def finish : Prog := .use (void .reqComplete (.put ok))

/-- What follows the request for the line lock: wait, lock, error, as in `/repo/src/engine/engine_wo.c:233-245`. `resume` is
on the waiting list; `go` is done with the lock. -/
def locked (resume : Fn) (go : Prog) : Prog :=
  .either (.spawn resume (.use (.put ok))) (.either (.use go) (.use (void .reqComplete (.put (.put ok)))))

/-- What follows `ocf_engine_prepare_clines`, `/repo/src/engine/engine_rd.c:194-218`. `other`: the engine taken when
mapping failed. -/
def prepare (go other : Fn) : Prog :=
  .use (.either (.use (void other (.put ok))) (locked .onResume (void go (.put ok))))

/-- Entry points of the modes, `/repo/src/engine/cache_engine.c:33-117`. -/
def anyMode : List Fn := [.readGeneric, .readPt, .readWo, .writeWt, .writeWb, .writeWi, .writeWa]

/-- What is fixed for a run: the request goes past the cache (`req->d2c`), the map of a discard cannot be
allocated (`/repo/src/ocf_core.c:397-401`), and whether `ocf_hb_req_prot_unlock_rd` still uses the request after it
released the last bucket (`/repo/src/concurrency/ocf_metadata_concurrency.c:472-482`). -/
structure Env where
  d2c : Bool
  noMem : Bool
  late : Bool
deriving DecidableEq, Repr

/-- The C functions, `/repo/src/ocf_core.c:210-404`, `/repo/src/engine/cache_engine.c:200-256` and the engines. -/
def body (e : Env) : Fn → Prog
  | .reqComplete => -- `/repo/src/ocf_core.c:210-218`
    .endCb (.use (.put ok))
  | .submitIo => -- `/repo/src/ocf_core.c:259-327`
    .either (.endCb ok) (.get (
    if e.d2c then void .d2cIo ok
    else .either fail (.use (.get (.call .submitIoFast
      (.use (.put ok))
      (.use (.put (.use (.call .hndlReq ok fail)))))))))
  | .submitIoFast => -- `/repo/src/ocf_core.c:236-257`
    .use (.either no (.call .hndlFast ok (.use no)))
  | .submitFlush => -- `/repo/src/ocf_core.c:329-360`
    .either (.endCb ok) (.get (
    if e.d2c then void .d2cFlush ok else void .hndlFlush ok))
  | .submitDiscard => -- `/repo/src/ocf_core.c:362-404`
    .either (.endCb ok) (.get (
    if e.d2c then void .d2cDiscard ok
    else if e.noMem then .endCb ok
    else void .hndlDiscard ok))
  | .hndlReq => -- `/repo/src/engine/cache_engine.c:200-222`
    .use (.either no (.chooseH anyMode (.get (.pushH ok))))
  | .hndlFast => -- `/repo/src/engine/cache_engine.c:224-240`
    .get (.either (.call .readFast ok (.put no)) (.call .writeFast ok (.put no)))
  | .hndlDiscard => -- `/repo/src/engine/cache_engine.c:242-247`
    .get (void .discard ok)
  | .hndlFlush => -- `/repo/src/engine/cache_engine.c:249-256`
    .get (.setH .flush (.pushH ok))
  | .onResume => -- `/repo/src/engine/engine_common.c:645-656`
    .use (.savePriv (.setH .refresh (.pushH ok)))
  | .refresh => -- `/repo/src/engine/engine_common.c:609-643`
    .use (.either (.loadPriv (.callH ok)) (void .reqComplete (.use (.put ok))))
  | .cleanEnd => -- `/repo/src/engine/engine_common.c:375-398`
    .use (.either finish (.pushH ok))
  | .invalidate => -- `/repo/src/engine/engine_inv.c:54-58`
    .spawn .invalidateDo ok
  | .invalidateDo => -- `/repo/src/engine/engine_inv.c:35-52`
    .use (.either (.spawn .invalidateEnd ok) (void .invalidateEnd ok))
  | .invalidateEnd => -- `/repo/src/engine/engine_inv.c:20-33`
    .use (.put ok)
  | .backfill => -- `/repo/src/engine/engine_bf.c:99-104`
    .use (.spawn .backfillDo ok)
  | .backfillDo => -- `/repo/src/engine/engine_bf.c:84-97`
    .use (.either (void .backfillEnd ok) (.spawn .backfillEnd ok))
  | .backfillEnd => -- `/repo/src/engine/engine_bf.c:59-82`
    .use (.either (void .invalidate ok) (.spawn .backfillUpdate ok))
  | .backfillUpdate => -- `/repo/src/engine/engine_bf.c:42-57`
    .use (.put ok)
  | .rdHitEnd => -- `/repo/src/engine/engine_rd.c:26-42`
    .use (.either (.setH .ptDo (.pushH ok)) finish)
  | .rdMissEnd => -- `/repo/src/engine/engine_rd.c:44-76`
    .either (void .reqComplete (.use (void .invalidate ok))) (.use (void .reqComplete (void .backfill ok)))
  | .rdSubmitHit => -- `/repo/src/engine/engine_rd.c:78-82`
    .use (.spawn .rdHitEnd ok)
  | .rdSubmitMiss => -- `/repo/src/engine/engine_rd.c:84-109`
    .use (.spawn .rdMissEnd ok)
  | .rdDo => -- `/repo/src/engine/engine_rd.c:111-167`
    .use (.either (void .ptDo ok) (.get (.either
    (.use (.spawn .cleanEnd (.use (.put ok))))
    (.use (.either (void .rdSubmitHit (.use (.put ok))) (void .rdSubmitMiss (.use (.put ok))))))))
  | .readGeneric => -- `/repo/src/engine/engine_rd.c:174-221`
    .use (.either (void .readPt ok) (.get (.setH .rdDo (prepare .rdDo .readPt))))
  | .ptEnd => -- `/repo/src/engine/engine_pt.c:21-35`
    void .reqComplete (.use (.put ok))
  | .ptDo => -- `/repo/src/engine/engine_pt.c:45-91`
    .get (.either (.use (.spawn .cleanEnd (.use (.put ok)))) (.use (.spawn .ptEnd (.use (.put ok)))))
  | .readPt => -- `/repo/src/engine/engine_pt.c:93-160`
    .get (.setH .ptDo (.use (.either (.use (void .readGeneric (.put ok))) (locked .onResume (void .ptDo (.put ok))))))
  | .wtFlushEnd => -- `/repo/src/engine/engine_wt.c:57-68`
    finish
  | .wtFlush => -- `/repo/src/engine/engine_wt.c:70-86`
    .use (.either (.spawn .wtFlushEnd ok) (void .wtFlushEnd ok))
  | .wtPart => -- `/repo/src/engine/engine_wt.c:88-111`
    .remDec (.use (.either (void .reqComplete (void .invalidate ok))
    (.either (.setH .wtFlush (.pushH ok)) finish))) ok
  | .wtCacheEnd => -- `/repo/src/engine/engine_wt.c:113-128`
    .use (void .wtPart ok)
  | .wtCoreEnd => -- `/repo/src/engine/engine_wt.c:130-139`
    .use (void .wtPart ok)
  | .wtSubmit => -- `/repo/src/engine/engine_wt.c:141-154`
    .remSet 2 (.use (.spawn .wtCacheEnd (.use (.spawn .wtCoreEnd ok))))
  | .wtDo => -- `/repo/src/engine/engine_wt.c:156-178`
    .get (.use (void .wtSubmit (.use (.put ok))))
  | .writeWt => -- `/repo/src/engine/engine_wt.c:185-220`
    .get (.setH .wtDo (prepare .wtDo .writeWi))
  | .wbFlushEnd => -- `/repo/src/engine/engine_wb.c:50-60`
    finish
  | .wbFlush => -- `/repo/src/engine/engine_wb.c:62-77`
    .use (.either (.spawn .wbFlushEnd ok) (void .wbFlushEnd ok))
  | .wbEnd => -- `/repo/src/engine/engine_wb.c:79-95`
    .use (.either (void .reqComplete (void .invalidate ok)) (.setH .wbFlush (.pushH ok)))
  | .wbSubmit => -- `/repo/src/engine/engine_wb.c:98-123`
    .use (.spawn .wbEnd ok)
  | .wbDo => -- `/repo/src/engine/engine_wb.c:125-141`
    .get (void .wbSubmit (.use (.put ok)))
  | .writeWb => -- `/repo/src/engine/engine_wb.c:148-186`
    .get (.setH .wbDo (prepare .wbDo .writeWi))
  | .wiNext => -- `/repo/src/engine/engine_wi.c:20-46`
    .use (.either (void .reqComplete (.put ok)) (.use (void .writeWi ok)))
  | .wiFlushEnd => -- `/repo/src/engine/engine_wi.c:48-66`
    .use (.either (.setH .wiNext (.pushH ok)) finish)
  | .wiUpdate => -- `/repo/src/engine/engine_wi.c:68-99`
    .use (.either (void .wiNext ok) (.use (.either (.spawn .wiFlushEnd ok) (void .wiFlushEnd ok))))
  | .wiCoreEnd => -- `/repo/src/engine/engine_wi.c:101-117`
    .use (.either finish (.setH .wiUpdate (.pushH ok)))
  | .wiCore => -- `/repo/src/engine/engine_wi.c:119-155`
    .get (.either (.use (.spawn .cleanEnd (.use (.put ok)))) (.use (.spawn .wiCoreEnd (.use (.put ok)))))
  | .wiResume => -- `/repo/src/engine/engine_wi.c:157-161`
    .use (.pushH ok)
  | .writeWi => -- `/repo/src/engine/engine_wi.c:163-212`
    .get (.chooseH [.wiUpdate, .wiCore] (.use (locked .wiResume (.callH (.put ok)))))
  | .writeWa => -- `/repo/src/engine/engine_wa.c:20-52`
    .get (.use (.either (void .writeWt (.put ok)) (void .writeWi (.put ok))))
  | .woCacheEnd => -- `/repo/src/engine/engine_wo.c:23-42`
    .use (void .reqComplete (.put ok))
  | .woCacheDo => -- `/repo/src/engine/engine_wo.c:52-142`
    .use (.spawn .woCacheEnd ok)
  | .woCoreEnd => -- `/repo/src/engine/engine_wo.c:144-170`
    .use (.either (void .reqComplete (.use (.put ok))) (.setH .woCacheDo (.pushH ok)))
  | .woDo => -- `/repo/src/engine/engine_wo.c:172-198`
    .get (.use (.either (void .rdSubmitHit (.use (.put ok))) (.spawn .woCoreEnd (.use (.put ok)))))
  | .readWo => -- `/repo/src/engine/engine_wo.c:200-248`
    .get (.setH .woDo (.use (locked .onResume (void .woDo (.put ok)))))
  | .fastEnd => -- `/repo/src/engine/engine_fast.c:32-51`
    .use (.either (.setH .ptDo (.pushH ok)) finish)
  | .fastDo => -- `/repo/src/engine/engine_fast.c:53-91`
    .use (.either (void .ptDo ok) (.get (.use (.spawn .fastEnd (.use (.put ok))))))
  | .readFast => -- `/repo/src/engine/engine_fast.c:93-149`
    .get (.setH .fastDo (.use (.either (locked .onResume (void .fastDo (.put ok))) (.use (.put no)))))
  | .writeFast => -- `/repo/src/engine/engine_fast.c:159-215`
    .get (.setH .wbDo (.use (.either (locked .onResume (void .wbDo (.put ok))) (.use (.put no)))))
  | .d2cEnd => -- `/repo/src/engine/engine_d2c.c:18-30`
    .use (void .reqComplete (.put ok))
  | .d2cIo => -- `/repo/src/engine/engine_d2c.c:32-55`
    .get (.get (.use (.spawn .d2cEnd (.use (.put ok)))))
  | .d2cFlush => -- `/repo/src/engine/engine_d2c.c:57-75`
    .get (.use (.spawn .d2cEnd (.use ok)))
  | .d2cDiscard => -- `/repo/src/engine/engine_d2c.c:77-95`
    .get (.use (.spawn .d2cEnd (.use ok)))
  | .flushEnd => -- `/repo/src/engine/engine_flush.c:17-37`
    .use (.remDec finish ok)
  | .flush => -- `/repo/src/engine/engine_flush.c:39-57`
    .get (.remSet 2 (.use (.spawn .flushEnd (.use (.spawn .flushEnd (.put ok))))))
  | .discEnd => -- `/repo/src/engine/engine_discard.c:22-27`
    void .reqComplete (.put ok)
  | .discCore => -- `/repo/src/engine/engine_discard.c:29-37`
    .use (.spawn .discEnd ok)
  | .discFlushEnd => -- `/repo/src/engine/engine_discard.c:39-49`
    .use (.either (void .discEnd ok) (.setH .discCore (.pushH ok)))
  | .discFlush => -- `/repo/src/engine/engine_discard.c:51-57`
    .use (.spawn .discFlushEnd ok)
  | .discFinish => -- `/repo/src/engine/engine_discard.c:61-73`
    .use (.chooseH [.discStep, .discFlush, .discCore] (.pushH ok))
  | .discPart => -- `/repo/src/engine/engine_discard.c:75-92`
    .remDec (.use (.either (void .discEnd ok) (void .discFinish ok))) ok
  | .discStepDo => -- `/repo/src/engine/engine_discard.c:94-137`
    .get (.remSet 1 (.either (.use (.remInc (.spawn .discPart (.use (void .discPart (.put ok))))))
    (.use (void .discPart (.put ok)))))
  | .discResume => -- `/repo/src/engine/engine_discard.c:139-143`
    .use (.pushH ok)
  | .discStep => -- `/repo/src/engine/engine_discard.c:145-197`
    .use (.setH .discStepDo (.either (void .discStepDo ok)
    (.either (.spawn .discResume (if e.late then .use ok else ok)) (void .discFinish ok))))
  | .discard => -- `/repo/src/engine/engine_discard.c:199-220`
    .either (void .reqComplete (.put ok)) (.get (void .discStep (.put ok)))

/-- A thread: what it still does, and what its callers do afterwards; like the C stack,
`/repo/src/ocf_queue.c:208-223`. -/
structure Thread where
  cur : Prog
  stack : List (Prog × Prog)
deriving Repr

/-- The request, `/repo/src/ocf_request.h:166-318`: references (0: freed), parts, handlers; calls of the end function;
whether the owner still has its reference; `bad`: the request was used after it was freed. -/
structure St where
  refs : Nat
  rem : Nat
  handler : Fn
  priv : Fn
  ends : Nat
  owner : Bool
  bad : Bool
  threads : List Thread

/-- Right before it is submitted by its owner with `f`, `/repo/src/ocf_core.c:474-481`. -/
def init (f : Fn) : St :=
  { refs := 1, rem := 0, handler := .readGeneric, priv := .readGeneric, ends := 0, owner := true, bad := false,
    threads := [⟨void f ok, []⟩] }

/-- the request is used, `/repo/src/ocf_request.c:395-405`. -/
def St.touch (s : St) : St := { s with bad := s.bad || decide (s.refs = 0) }

/-- thread `i` goes on as `t`, cf. `/repo/src/ocf_queue.c:208-223`. -/
def St.go (s : St) (i : Nat) (t : Thread) : St := { s with threads := s.threads.set i t }

/-- a new thread, cf. `/repo/src/ocf_queue.c:256-286`. -/
def St.start (s : St) (p : Prog) : St := { s with threads := s.threads ++ [⟨p, []⟩] }

/-- One step of thread `i`; `c`, `n`: the free choices. `/repo/src/ocf_request.c:377-408`. -/
def St.step (e : Env) (s : St) (i : Nat) (c : Bool) (n : Nat) (t : Thread) : St :=
  match t.cur with
  | .ret b =>
    match t.stack with
    | [] => s
    | (y, o) :: st => s.go i ⟨if b then y else o, st⟩
  | .get k => { (s.touch.go i ⟨k, t.stack⟩) with refs := s.refs + 1 }
  | .put k => { (s.touch.go i ⟨k, t.stack⟩) with refs := s.refs - 1 }
  | .use k => s.touch.go i ⟨k, t.stack⟩
  | .endCb k => { (s.touch.go i ⟨k, t.stack⟩) with ends := s.ends + 1 }
  | .call f y o => s.go i ⟨body e f, (y, o) :: t.stack⟩
  | .spawn f k => (s.go i ⟨k, t.stack⟩).start (void f ok)
  | .setH f k => { (s.touch.go i ⟨k, t.stack⟩) with handler := f }
  | .chooseH fs k => { (s.touch.go i ⟨k, t.stack⟩) with handler := fs.getD n s.handler }
  | .pushH k => (s.touch.go i ⟨k, t.stack⟩).start (.callH ok)
  | .callH k => s.touch.go i ⟨body e s.handler, (k, k) :: t.stack⟩
  | .savePriv k => { (s.touch.go i ⟨k, t.stack⟩) with priv := s.handler }
  | .loadPriv k => { (s.touch.go i ⟨k, t.stack⟩) with handler := s.priv }
  | .either a b => s.go i ⟨if c then a else b, t.stack⟩
  | .remSet m k => { (s.touch.go i ⟨k, t.stack⟩) with rem := m }
  | .remInc k => { (s.touch.go i ⟨k, t.stack⟩) with rem := s.rem + 1 }
  | .remDec z o => { (s.touch.go i ⟨if s.rem - 1 = 0 then z else o, t.stack⟩) with rem := s.rem - 1 }

/-- Runs: a thread goes on, or the owner puts its reference after the end function was called
(`ocf_io_put`, `/repo/src/ocf_io.c:131-139`). -/
inductive Run (e : Env) : St → St → Prop where
  | refl (s : St) : Run e s s
  | step {a s : St} {t : Thread} (i : Nat) (c : Bool) (n : Nat) : Run e a s → s.threads[i]? = some t →
      Run e a (s.step e i c n t)
  | ownerPut {a s : St} : Run e a s → 0 < s.ends → s.owner = true →
      Run e a { s.touch with owner := false, refs := s.refs - 1 }

end Verif.ReqRef
