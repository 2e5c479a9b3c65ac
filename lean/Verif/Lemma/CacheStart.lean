import Verif.Model.CacheStart
import Verif.Lemma.Common

/-! Lemmas on starting a cache (C63). -/

namespace Verif.CacheStart

/-- A cache with everything initialised. -/
def full (m : Nat) (md lk : Bool) : R :=
  { mem := true, lockCnt := true, lockObj := true, cCache := true, cDirty := true, cMeta := true, cD2c := true
    clean := fun k => decide (k < m), mutex := true, spin := true, metad := md
    refs := if lk then 2 else 1, locked := lk, bad := 0 }

theorem no_clean {n m : Nat} (h : n ≤ m) : (fun k => if k < m then false else decide (k < n)) = fun _ => false := by
  funext k
  split
  · rfl
  · simp; omega

theorem all_clean (n : Nat) : ((List.range n).filter (fun k => !decide (k < n))).length = 0 := by
  rw [List.length_eq_zero_iff, List.filter_eq_nil_iff]
  intro k hk
  have := List.mem_range.1 hk
  simp [this]

theorem not_all_clean (n : Nat) : ((List.range (n + 1)).filter (fun k => !decide (k < n))).length = 1 := by
  rw [List.range_succ, List.filter_append, List.length_append, all_clean]
  simp

/-- Undoing from the class counters on: one counter too many, and the lock needs a counter that is gone. -/
theorem eClean_nothing {r : R} {n : Nat}
    (h : r = { mem := true, lockCnt := true, lockObj := true, cCache := true, cDirty := true, cMeta := true
               cD2c := true, clean := fun k => decide (k < n), refs := r.refs }) :
    eClean r n = { bad := 2 } := by
  rw [h]
  simp only [eClean, eD2c, eMeta, eDirty, eLockInit, dMem, lockDeinit, dCache, dDirty, dMeta, dD2c, dClean,
    no_clean (Nat.le_succ n), not_all_clean]
  rfl

/-- The rest of a new cache. -/
theorem newRest_spec {r : R} {m : Nat} {i : I}
    (hr : r = { mem := true, lockCnt := true, lockObj := true, cCache := true, cDirty := true, cMeta := true
                cD2c := true, clean := fun k => decide (k < m) }) :
    newRest r m i = if i.try' && i.mutex && i.spin && i.inc then (full m false true, true)
      else ({ bad := 2 }, false) := by
  subst hr
  unfold newRest trylock
  cases i.try' with
  | false =>
    simp only [Bool.false_and, Bool.false_eq_true, if_false, if_true]
    rw [eClean_nothing (by rfl)]
  | true =>
    cases i.mutex with
    | false =>
      simp only [Bool.false_and, Bool.and_false, Bool.false_eq_true, if_false, if_true, Bool.not_false, eLock, unlock,
        Bool.true_eq_false]
      rw [eClean_nothing (by rfl)]
    | true =>
      cases i.spin with
      | false =>
        simp only [Bool.false_and, Bool.and_false, Bool.false_eq_true, if_false, if_true, Bool.not_false, eLock, unlock,
          Bool.true_eq_false, Bool.not_true, eMutex, dMutex]
        rw [eClean_nothing (by rfl)]
      | true =>
        cases i.inc with
        | false =>
          simp only [Bool.and_false, Bool.false_eq_true, if_false, if_true, Bool.not_false, eLock, unlock,
            Bool.true_eq_false, Bool.not_true, eMutex, dMutex, eInc, dSpin]
          rw [eClean_nothing (by rfl)]
        | true => simp [full, no]

/-- Whether all of a new cache can be had. -/
def can (m : Nat) (i : I) : Bool :=
  i.mem && i.lockCnt && i.lockObj && i.cCache && i.cDirty && i.cMeta && i.cD2c && decide (m ≤ i.clean) && i.try' &&
    i.mutex && i.spin && i.inc

/-- How many misuses a failure of creating a cache has. -/
def misuse (i : I) : Nat :=
  if i.mem && i.lockCnt && i.lockObj then (if i.cCache && i.cDirty && i.cMeta && i.cD2c then 2 else 1) else 0

theorem newCounters_spec {r : R} {m : Nat} {i : I} (hr : r = { mem := true, lockCnt := true, lockObj := true }) :
    newCounters r m i =
      if i.cCache && i.cDirty && i.cMeta && i.cD2c && decide (m ≤ i.clean) && i.try' && i.mutex && i.spin && i.inc
      then (full m false true, true)
      else ({ bad := if i.cCache && i.cDirty && i.cMeta && i.cD2c then 2 else 1 }, false) := by
  subst hr
  unfold newCounters
  cases h1 : i.cCache with
  | false => simp [eLockInit, lockDeinit, dMem, no]
  | true =>
    cases h2 : i.cDirty with
    | false => simp [eDirty, dCache, eLockInit, lockDeinit, dMem, no]
    | true =>
      cases h3 : i.cMeta with
      | false => simp [eMeta, dDirty, eDirty, dCache, eLockInit, lockDeinit, dMem, no]
      | true =>
        cases h4 : i.cD2c with
        | false => simp [eD2c, dMeta, eMeta, dDirty, eDirty, dCache, eLockInit, lockDeinit, dMem, no]
        | true =>
          simp only [Bool.not_true, Bool.false_eq_true, if_false, Bool.true_and]
          by_cases h5 : i.clean < m
          · have h6 : ¬ m ≤ i.clean := by omega
            have h7 : min i.clean m = i.clean := by omega
            rw [if_pos h5, h7, eClean_nothing (by rfl)]
            simp [h6]
          · have h6 : m ≤ i.clean := by omega
            have h7 : min i.clean m = m := by omega
            rw [if_neg h5, h7, newRest_spec rfl]
            simp [h6]

theorem newCache_spec (m : Nat) (i : I) :
    newCache m i = if can m i then (full m false true, true)
      else ({ bad := misuse i }, false) := by
  unfold newCache can lockInit misuse
  cases h1 : i.mem with
  | false => simp
  | true =>
    cases h2 : i.lockCnt with
    | false => simp [dMem, no]
    | true =>
      cases h3 : i.lockObj with
      | false => simp [dMem, no]
      | true =>
        simp only [Bool.not_true, Bool.false_eq_true, if_false, Bool.true_eq_false, Bool.true_and, if_true]
        rw [newCounters_spec rfl]

/-- Undoing a full cache: the lock needs a counter that is gone. -/
theorem handleError_spec (m : Nat) (md : Bool) : handleError (full m md true) m = { bad := 1 } := by
  cases md <;>
    simp only [handleError, full, unlock, dMutex, dSpin, dClean, dD2c, dMeta, dDirty, dCache, lockDeinit, dMem,
      no_clean (Nat.le_refl m), all_clean] <;> rfl

end Verif.CacheStart
