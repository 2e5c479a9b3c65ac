/-! Parameters of the cleaning policies, and when ALRU cleans by them (C66).

Values of parameters have 32 bits. Time is counted in microseconds, as in the posix environment. -/

namespace Verif.CleanParam

/-- The parameters of ALRU and ACP in the superblock.
Source: /repo/src/cleaning/alru_structs.h:19-25, /repo/src/cleaning/acp_structs.h:18-21. -/
structure Cfg where
  aWake : Nat
  aStale : Nat
  aMax : Nat
  aAct : Nat
  aRatio : Nat
  pWake : Nat
  pMax : Nat
  deriving DecidableEq, Repr

/-- A cache: its parameters, whether it is in standby, whether it has a device. Ghost: how often the cleaner was kicked.
Source: /repo/src/mngt/ocf_mngt_flush.c:1116-1126. -/
structure St where
  cfg : Cfg
  standby : Bool
  attached : Bool
  kicks : Nat
  deriving DecidableEq, Repr

/-- What calls return.
Source: /repo/src/mngt/ocf_mngt_flush.c:1118-1125. -/
inductive Res | ok | inval | standby | detached
  deriving DecidableEq, Repr

/-- `cleaning_policy_alru_setup`.
Source: /repo/src/cleaning/alru.c:355-366, /repo/inc/cleaning/alru.h:30-80. -/
def setupAlru (c : Cfg) : Cfg := { c with aWake := 20, aStale := 120, aMax := 100, aAct := 10000, aRatio := 100 }

/-- `cleaning_policy_acp_setup`.
Source: /repo/src/cleaning/acp.c:239-247, /repo/inc/cleaning/acp.h:26-43. -/
def setupAcp (c : Cfg) : Cfg := { c with pWake := 10, pMax := 128 }

/-- `OCF_CLEANING_CHECK_PARAM`: whether a value is refused.
Source: /repo/src/cleaning/cleaning_priv.h:14-19. -/
def refused (v lo hi : Nat) : Bool := v < lo || v > hi

/-- `cleaning_policy_alru_set_cleaning_param`.
Source: /repo/src/cleaning/alru.c:586-648, /repo/inc/cleaning/alru.h:14-80. -/
def setAlru (s : St) (id v : Nat) : St × Res :=
  match id with
  | 0 => if refused v 0 3600 then (s, .inval) else ({ s with cfg := { s.cfg with aWake := v }, kicks := s.kicks + 1 }, .ok)
  | 1 => if refused v 1 3600 then (s, .inval) else ({ s with cfg := { s.cfg with aStale := v } }, .ok)
  | 2 => if refused v 1 10000 then (s, .inval) else ({ s with cfg := { s.cfg with aMax := v } }, .ok)
  | 3 => if refused v 0 1000000 then (s, .inval) else ({ s with cfg := { s.cfg with aAct := v } }, .ok)
  | 4 => if refused v 0 100 then (s, .inval) else ({ s with cfg := { s.cfg with aRatio := v } }, .ok)
  | _ => (s, .inval)

/-- `cleaning_policy_acp_set_cleaning_param`.
Source: /repo/src/cleaning/acp.c:481-514, /repo/inc/cleaning/acp.h:13-43. -/
def setAcp (s : St) (id v : Nat) : St × Res :=
  match id with
  | 0 => if refused v 0 10000 then (s, .inval) else ({ s with cfg := { s.cfg with pWake := v }, kicks := s.kicks + 1 }, .ok)
  | 1 => if refused v 1 10000 then (s, .inval) else ({ s with cfg := { s.cfg with pMax := v } }, .ok)
  | _ => (s, .inval)

/-- `ocf_cleaning_set_param`: the policy `nop` has no parameters.
Source: /repo/src/cleaning/cleaning_ops.h:249-259, /repo/src/cleaning/cleaning_ops.h:37-72. -/
def setOps (s : St) (t id v : Nat) : St × Res :=
  match t with
  | 1 => setAlru s id v
  | 2 => setAcp s id v
  | _ => (s, .inval)

/-- `ocf_mngt_cache_cleaning_set_param`. The lock of metadata is held over the change.
Source: /repo/src/mngt/ocf_mngt_flush.c:1111-1134. -/
def set (s : St) (t id v : Nat) : St × Res :=
  if 3 ≤ t then (s, .inval)
  else if s.standby then (s, .standby)
  else if !s.attached then (s, .detached)
  else setOps s t id v

/-- `cleaning_policy_alru_get_cleaning_param`.
Source: /repo/src/cleaning/alru.c:650-678. -/
def getAlru (c : Cfg) (id : Nat) : Option Nat :=
  match id with
  | 0 => some c.aWake
  | 1 => some c.aStale
  | 2 => some c.aMax
  | 3 => some c.aAct
  | 4 => some c.aRatio
  | _ => none

/-- `cleaning_policy_acp_get_cleaning_param`.
Source: /repo/src/cleaning/acp.c:516-535. -/
def getAcp (c : Cfg) (id : Nat) : Option Nat :=
  match id with
  | 0 => some c.pWake
  | 1 => some c.pMax
  | _ => none

/-- `ocf_cleaning_get_param`; `none` is an invalid parameter.
Source: /repo/src/cleaning/cleaning_ops.h:261-271. -/
def getOps (c : Cfg) (t id : Nat) : Option Nat :=
  match t with
  | 1 => getAlru c id
  | 2 => getAcp c id
  | _ => none

/-- `ocf_mngt_cache_cleaning_get_param`.
Source: /repo/src/mngt/ocf_mngt_flush.c:1136-1149. -/
def get (s : St) (t id : Nat) : Res × Option Nat :=
  if 3 ≤ t then (.inval, none)
  else if s.standby then (.standby, none)
  else match getOps s.cfg t id with
    | some v => (.ok, some v)
    | none => (.inval, none)

/-! ## When ALRU cleans -/

/-- 32 and 64 bits.
Source: /repo/src/cleaning/alru.c:683-689. -/
def W32 : Nat := 4294967296

/-- 64 bits.
Source: /repo/src/cleaning/alru.c:683-689. -/
def W64 : Nat := 18446744073709551616

/-- `compute_timestamp`, at time `now`.
Source: /repo/src/cleaning/alru.c:680-690. -/
def stamp (c : Cfg) (now : Nat) : Nat := (now + W64 - c.aStale * 1000000) % W64 / 1000000 % W32

/-- `check_for_io_activity`. `last`, `last_access_ms`.
Source: /repo/src/cleaning/alru.c:692-703. -/
def active (c : Cfg) (now last : Nat) : Bool := decide ((now / 1000 % W32 + W32 - last) % W32 < c.aAct)

/-- `clean_later`. `prev`, `cleaning_thread_access`.
Source: /repo/src/cleaning/alru.c:705-717. -/
def later (c : Cfg) (now prev : Nat) : Bool := decide ((now / 1000000 % W32 + W32 - prev) % W32 ≤ c.aWake)

/-- `check_for_dirty_ratio`. 32-bit arithmetic.
Source: /repo/src/cleaning/alru.c:719-731. -/
def ratio (c : Cfg) (dirty size : Nat) : Bool :=
  if c.aRatio = 100 then false else decide (c.aRatio ≤ dirty * 100 % W32 / size)

/-- `is_cleanup_possible`: whether to clean, and whether the ratio is exceeded.
Source: /repo/src/cleaning/alru.c:733-765. -/
def possible (c : Cfg) (now last prev dirty size : Nat) : Bool × Bool :=
  if ratio c dirty size then (true, true)
  else if active c now last then (false, false)
  else if later c now prev then (false, false)
  else if c.aMax = 0 then (false, false)
  else (true, false)

/-- Whether a line last written at second `ts` is old enough, `more_blocks_to_flush` with the bound of
`get_data_to_flush`. `x`, the ratio is exceeded.
Source: /repo/src/cleaning/alru.c:790-794, /repo/src/cleaning/alru.c:836-836. -/
def old (c : Cfg) (x : Bool) (now ts : Nat) : Bool := decide (ts < if x then W32 - 1 else stamp c now)

/-- The delay to the next run, in milliseconds, an `int`.
Source: /repo/src/cleaning/alru.c:875-889. -/
def delay (c : Cfg) (did : Bool) : Int :=
  if did then 0
  else if c.aWake * 1000 % W32 < 2147483648 then (c.aWake * 1000 % W32 : Nat)
  else (c.aWake * 1000 % W32 : Nat) - 4294967296

end Verif.CleanParam
