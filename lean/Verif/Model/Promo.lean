/-! The promotion policy of a cache: its creation, switching, parameters and end (C60).

The table of the policy 'nhit' is in `Verif.Nhit`; here it is a number of buckets and its allocations. Calls are
atomic: set_policy and set_param hold the metadata lock exclusively, requests use the policy under the same lock,
shared (/repo/src/mngt/ocf_mngt_cache.c:3648-3652, /repo/src/engine/engine_common.c:478-500). -/

namespace Verif.Promo

/-- `ocf_promotion_always`.
Source: /repo/inc/ocf_def.h:209-211. -/
def always : Nat := 0

/-- `ocf_promotion_nhit`.
Source: /repo/inc/ocf_def.h:213-214. -/
def nhit : Nat := 1

/-- `ocf_promotion_max`.
Source: /repo/inc/ocf_def.h:216-217. -/
def types : Nat := 2

/-- What is held: policy structures, contexts, tables, maps, arrays of locks, initialised locks, ring buffers,
initialised spinlocks.
Source: /repo/src/promotion/ops.h:12-22, /repo/src/promotion/nhit/nhit.c:16-18,
/repo/src/promotion/nhit/nhit_hash.c:98-108. -/
structure Held where
  pol : Nat := 0
  ctx : Nat := 0
  hash : Nat := 0
  map : Nat := 0
  locks : Nat := 0
  sem : Nat := 0
  ring : Nat := 0
  spin : Nat := 0
  deriving DecidableEq, Repr

/-- Which calls of `nhit_hash_init` succeed; `sem`: how many locks can be initialised.
Source: /repo/src/promotion/nhit/nhit_hash.c:137-183. -/
structure HashIn where
  ctx : Bool
  map : Bool
  locks : Bool
  sem : Nat
  ring : Bool
  spin : Bool
  deriving DecidableEq, Repr

/-- Label `dealloc_ctx`.
Source: /repo/src/promotion/nhit/nhit_hash.c:196-199. -/
def deCtx (h : Held) : Held := { h with hash := h.hash - 1 }

/-- Label `dealloc_hash`.
Source: /repo/src/promotion/nhit/nhit_hash.c:194-199. -/
def deHash (h : Held) : Held := deCtx { h with map := h.map - 1 }

/-- Label `dealloc_locks` with `k` locks initialised.
Source: /repo/src/promotion/nhit/nhit_hash.c:190-199. -/
def deLocks (h : Held) (k : Nat) : Held := deHash { h with sem := h.sem - k, locks := h.locks - 1 }

/-- `nhit_hash_init` with `n` buckets. When the spinlock cannot be initialised the ring buffer stays.
Source: /repo/src/promotion/nhit/nhit_hash.c:130-200. -/
def hashInit (h : Held) (n : Nat) (i : HashIn) : Held × Bool :=
  if !i.ctx then (h, false) else
  let h := { h with hash := h.hash + 1 }
  if !i.map then (deCtx h, false) else
  let h := { h with map := h.map + 1 }
  if !i.locks then (deHash h, false) else
  let h := { h with locks := h.locks + 1, sem := h.sem + min i.sem n }
  if i.sem < n then (deLocks h i.sem, false) else
  if !i.ring then (deLocks h n, false) else
  let h := { h with ring := h.ring + 1 }
  if !i.spin then (deLocks h n, false) else
  ({ h with spin := h.spin + 1 }, true)

/-- `nhit_hash_deinit`.
Source: /repo/src/promotion/nhit/nhit_hash.c:202-214. -/
def hashDeinit (h : Held) (n : Nat) : Held :=
  { h with spin := h.spin - 1, sem := h.sem - n, ring := h.ring - 1, locks := h.locks - 1, map := h.map - 1
           hash := h.hash - 1 }

/-- `struct ocf_promotion_policy`: type, whose parameters `config` points to, buckets of the table behind `ctx`
(`none`: not set).
Source: /repo/src/promotion/ops.h:12-22. -/
structure Pol where
  type : Nat
  cfg : Nat
  tab : Option Nat
  deriving DecidableEq, Repr

/-- Results of calls.
Source: /repo/inc/ocf_err.h:18-141. -/
inductive Res
  | ok | inval | noMem | noRam | detached | standby
  deriving DecidableEq, Repr

/-- The cache: standby, attached, buckets a table would have, type and nhit parameters in the configuration
metadata, the policy. `leaks` is a ghost: tables whose spinlock could not be initialised. `bad`: a NULL pointer was
used or an assertion failed.
Source: /repo/src/ocf_cache_priv.h:118, /repo/src/metadata/metadata_superblock.h:52-53,
/repo/src/promotion/nhit/nhit_structs.h:8-14. -/
structure St where
  standby : Bool := false
  attached : Bool := false
  lines : Nat := 0
  type : Nat
  ins : Nat := 0
  trg : Nat := 0
  pol : Option Pol := none
  held : Held := {}
  leaks : Nat := 0
  bad : Bool := false
  deriving DecidableEq, Repr

/-- Which calls of `nhit_init` succeed; `ram`: there is enough free memory.
Source: /repo/src/promotion/nhit/nhit.c:41-76. -/
structure NhitIn where
  ram : Bool
  ctx : Bool
  hash : HashIn
  deriving DecidableEq, Repr

/-- Whether the table fails at its last step, for the ghost.
Source: /repo/src/promotion/nhit/nhit_hash.c:180-182. -/
def leak (n : Nat) (i : HashIn) : Nat :=
  if i.ctx && i.map && i.locks && decide (n ≤ i.sem) && i.ring && !i.spin then 1 else 0

/-- `nhit_init` for the policy `p`.
Source: /repo/src/promotion/nhit/nhit.c:41-82. -/
def nhitInit (s : St) (p : Pol) (i : NhitIn) : St × Res :=
  if !i.ram then (s, .noRam)
  else if !i.ctx then (s, .noMem)
  else
    let r := hashInit { s.held with ctx := s.held.ctx + 1 } s.lines i.hash
    if !r.2 then
      ({ s with held := { r.1 with ctx := r.1.ctx - 1 }, leaks := s.leaks + leak s.lines i.hash }, .noMem)
    else ({ s with held := r.1, pol := some { p with tab := some s.lines, cfg := nhit } }, .ok)

/-- `nhit_deinit`.
Source: /repo/src/promotion/nhit/nhit.c:84-92. -/
def nhitDeinit (s : St) (p : Pol) : St :=
  match p.tab with
  | none => { s with bad := true }
  | some n =>
    let h := hashDeinit s.held n
    { s with held := { h with ctx := h.ctx - 1 }, pol := some { p with tab := none } }

/-- `ocf_promotion_init`; `m`: the structure can be allocated.
Source: /repo/src/promotion/promotion.c:28-61. -/
def promInit (s : St) (m : Bool) (i : NhitIn) : St × Res :=
  if s.type ≥ types then ({ s with bad := true }, .ok)
  else if !m then (s, .noMem)
  else
    let p : Pol := ⟨s.type, s.type, none⟩
    let s := { s with pol := some p, held := { s.held with pol := s.held.pol + 1 } }
    if s.type = nhit then
      let r := nhitInit s p i
      if r.2 = .ok then r
      else ({ r.1 with pol := none, held := { r.1.held with pol := r.1.held.pol - 1 } }, r.2)
    else (s, .ok)

/-- `__deinit_promotion_policy` with `ocf_promotion_deinit`.
Source: /repo/src/mngt/ocf_mngt_cache.c:260-266, /repo/src/promotion/promotion.c:63-73. -/
def promDeinit (s : St) : St :=
  match s.pol with
  | none => s
  | some p =>
    let s := if p.type = nhit then nhitDeinit s p else s
    { s with pol := none, held := { s.held with pol := s.held.pol - 1 } }

/-- `ocf_promotion_set_policy` past its checks.
Source: /repo/src/promotion/promotion.c:93-113. -/
def switch (s : St) (p : Pol) (t : Nat) (i : NhitIn) : St × Res :=
  let tab := if s.type = nhit then none else p.tab
  let s := if s.type = nhit then nhitDeinit s p else s
  let p : Pol := { p with type := t, tab := tab }
  let s := { s with type := t, pol := some p }
  if t = nhit then
    let r := nhitInit s p i
    if r.2 = .ok then r
    else ({ r.1 with type := always, pol := some { p with type := always } }, r.2)
  else (s, .ok)

/-- `ocf_mngt_cache_promotion_set_policy` with `ocf_promotion_set_policy`. A detached cache is not refused (the
error is overwritten); its policy is NULL and is used at once.
Source: /repo/src/mngt/ocf_mngt_cache.c:3638-3655, /repo/src/promotion/promotion.c:75-116. -/
def setPolicy (s : St) (t : Nat) (i : NhitIn) : St × Res :=
  if s.standby then (s, .standby)
  else match s.pol with
    | none => ({ s with bad := true }, .ok)
    | some p =>
      if t ≥ types then (s, .inval)
      else if t = s.type then (s, .ok)
      else switch s p t i

/-- `ocf_mngt_cache_promotion_get_policy`.
Source: /repo/src/mngt/ocf_mngt_cache.c:3657-3671. -/
def getPolicy (s : St) : Res × Option Nat := if s.standby then (.standby, none) else (.ok, some s.type)

/-- `nhit_set_param`.
Source: /repo/src/promotion/nhit/nhit.c:94-142. -/
def nhitSet (s : St) (id v : Nat) : St × Res :=
  if id = 0 then (if v ≥ 2 ∧ v ≤ 1000 then ({ s with ins := v }, .ok) else (s, .inval))
  else if id = 1 then (if v ≤ 100 then ({ s with trg := v }, .ok) else (s, .inval))
  else (s, .inval)

/-- `ocf_mngt_cache_promotion_set_param` with `ocf_promotion_set_param`.
Source: /repo/src/mngt/ocf_mngt_cache.c:3690-3708, /repo/src/promotion/promotion.c:118-131. -/
def setParam (s : St) (t id v : Nat) : St × Res :=
  if s.standby then (s, .standby)
  else if !s.attached then (s, .detached)
  else if t ≥ types then ({ s with bad := true }, .ok)
  else if t = nhit then nhitSet s id v
  else (s, .inval)

/-- `ocf_mngt_cache_promotion_get_param` with `ocf_promotion_get_param` and `nhit_get_param`: result and value.
Source: /repo/src/mngt/ocf_mngt_cache.c:3673-3688, /repo/src/promotion/promotion.c:133-146,
/repo/src/promotion/nhit/nhit.c:144-171. -/
def getParam (s : St) (t id : Nat) : Res × Option Nat :=
  if s.standby then (.standby, none)
  else if t = nhit then
    (if id = 0 then (.ok, some s.ins) else if id = 1 then (.ok, some s.trg) else (.inval, none))
  else (.inval, none)

/-- `ocf_promotion_req_should_promote` and `ocf_promotion_req_purge`: `none` when a NULL pointer is used or an
assertion fails, otherwise the thresholds consulted, if any.
Source: /repo/src/promotion/promotion.c:148-173, /repo/src/promotion/nhit/nhit.c:179-249. -/
def request (s : St) : Option (Option (Nat × Nat)) :=
  match s.pol with
  | none => none
  | some p =>
    if p.type ≥ types then none
    else if p.type = nhit then
      (if p.tab.isNone then none else some (some (if p.cfg = nhit then (s.ins, s.trg) else (0, 0))))
    else some none

/-- How an attach goes on after the policy was initialised: to its end, or it fails before or after the default
parameters are set.
Source: /repo/src/mngt/ocf_mngt_cache.c:2078-2088. -/
inductive Later
  | ok | early | late
  deriving DecidableEq, Repr

/-- `nhit_setup`, by `__setup_promotion_policy`.
Source: /repo/src/promotion/nhit/nhit.c:20-28, /repo/src/mngt/ocf_mngt_cache.c:248-258. -/
def setup (s : St) : St := { s with ins := 3, trg := 80 }

/-- Attaching a new device with `n` buckets for the table.
Source: /repo/src/mngt/ocf_mngt_cache.c:2065-2090, /repo/src/mngt/ocf_mngt_cache.c:1453-1460,
/repo/src/mngt/ocf_mngt_cache.c:1814-1830, /repo/src/mngt/ocf_mngt_cache.c:2003-2012. -/
def attach (s : St) (n : Nat) (m : Bool) (i : NhitIn) (l : Later) : St × Res :=
  let r := promInit { s with lines := n } m i
  if r.2 ≠ .ok then r
  else match l with
    | .ok => ({ setup r.1 with attached := true }, .ok)
    | .early => (promDeinit r.1, .noMem)
    | .late => (promDeinit (setup r.1), .noMem)

/-- Configuration metadata read from a superblock, refused when the type is not valid.
Source: /repo/src/metadata/metadata_superblock.c:186-191. -/
def superblock (s : St) (t ins trg : Nat) : Option St :=
  if t ≥ types then none else some { s with type := t, ins := ins, trg := trg }

/-- Loading from a superblock, and activating a standby cache.
Source: /repo/src/mngt/ocf_mngt_cache.c:2093-2118, /repo/src/mngt/ocf_mngt_cache.c:2771-2791,
/repo/src/mngt/ocf_mngt_cache.c:2003-2012, /repo/src/mngt/ocf_mngt_cache.c:2722-2728. -/
def load (s : St) (n t ins trg : Nat) (m : Bool) (i : NhitIn) (ok : Bool) : St × Res :=
  match superblock s t ins trg with
  | none => (s, .inval)
  | some s =>
    let r := promInit { s with lines := n } m i
    if r.2 ≠ .ok then r
    else if ok then ({ r.1 with attached := true, standby := false }, .ok)
    else (promDeinit r.1, .noMem)

/-- Calls. `standbyOn` is standby attach or load, `standbyOff` its stop; `unplug` is detach, and the part of stop.
Source: /repo/src/mngt/ocf_mngt_cache.c:2538-2583, /repo/src/mngt/ocf_mngt_cache.c:2924-2935,
/repo/src/mngt/ocf_mngt_cache.c:2197-2214, /repo/src/mngt/ocf_mngt_cache.c:3837-3848. -/
inductive Op
  | attach (n : Nat) (m : Bool) (i : NhitIn) (l : Later)
  | load (n t ins trg : Nat) (m : Bool) (i : NhitIn) (ok : Bool)
  | activate (n t ins trg : Nat) (m : Bool) (i : NhitIn) (ok : Bool)
  | standbyOn (t ins trg : Nat)
  | standbyOff
  | unplug
  | setPolicy (t : Nat) (i : NhitIn)
  | setParam (t id v : Nat)
  | getParam (t id : Nat)
  deriving DecidableEq, Repr

/-- One call, where it is allowed.
Source: /repo/src/mngt/ocf_mngt_cache.c:2065-2118, /repo/src/mngt/ocf_mngt_cache.c:2197-2214,
/repo/src/mngt/ocf_mngt_cache.c:2538-2583, /repo/src/mngt/ocf_mngt_cache.c:2771-2791,
/repo/src/mngt/ocf_mngt_cache.c:3638-3708. -/
def step (s : St) : Op → St × Res
  | .attach n m i l => if s.attached || s.standby then (s, .inval) else attach s n m i l
  | .load n t ins trg m i ok => if s.attached || s.standby then (s, .inval) else load s n t ins trg m i ok
  | .activate n t ins trg m i ok => if !s.standby then (s, .inval) else load s n t ins trg m i ok
  | .standbyOn t ins trg =>
    if s.attached || s.standby then (s, .inval)
    else match superblock s t ins trg with
      | none => (s, .inval)
      | some s => ({ s with standby := true, attached := true }, .ok)
  | .standbyOff => if !s.standby then (s, .inval) else ({ s with standby := false, attached := false }, .ok)
  | .unplug => if s.standby then (s, .inval) else ({ promDeinit s with attached := false }, .ok)
  | .setPolicy t i => setPolicy s t i
  | .setParam t id v => setParam s t id v
  | .getParam t id => if !s.standby && t ≥ types then ({ s with bad := true }, .ok) else (s, (getParam s t id).1)

/-- Single steps. After a crash there is none.
Source: /repo/src/mngt/ocf_mngt_cache.c:3638-3708. -/
def Step (s t : St) : Prop := ∃ o, s.bad = false ∧ t = (step s o).1

/-- A started cache without a device; the type was checked, the parameters are whatever the metadata holds.
Source: /repo/src/mngt/ocf_mngt_cache.c:3105-3109, /repo/src/mngt/ocf_mngt_cache.c:1558. -/
def Init (s : St) : Prop := ∃ t a b, t < types ∧ s = { type := t, ins := a, trg := b }

end Verif.Promo
