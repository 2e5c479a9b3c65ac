import Verif.Lemma.LruClean

/-!
C48: the cleaning of an I/O class on behalf of requests that found nothing to evict.

Specification in terms of what is to be seen from outside: cleaning orders under way, read locks on
cache lines, the reference counter management waits for.
-/

namespace Verif.LruClean

/-- the call site asks for more lines than fit (`128`). -/
def want : Nat := 128

theorem want_ok : cap ≤ want := by decide

/-- states reached by any number of callers from a fresh class. -/
def Reached (s : St) : Prop :=
  ∃ n es ops, es.length = cap ∧ Run want (init n es) ops s

theorem reached_inv {s : St} (h : Reached s) : Inv s := by
  obtain ⟨n, es, ops, hl, hr⟩ := h
  exact run_inv want_ok (init_inv n es hl) hr

/-- Specification: caller `i` has a cleaning order for the lines `ls` under way. -/
def UnderWay (s : St) (i : Nat) (ls : List Nat) : Prop := s.pcs[i]? = some (.fly ls)

/-- C48: at most one cleaning order of a class is under way. -/
theorem one_order {s : St} (h : Reached s) {i j : Nat} {ls ls' : List Nat} (hi : UnderWay s i ls)
    (hj : UnderWay s j ls') : i = j := by
  have hs := reached_inv h
  refine Classical.byContradiction fun hij => ?_
  have h2 := countP_two Pc.owner s.pcs i j .idle _ _ rfl hi hj hij rfl rfl
  have := one_owner hs
  omega

/-- C48: an order is for at least one and at most 32 lines, each locked for reading as often as it
occurs, and the entries handed to the cleaner are exactly these lines. -/
theorem order_locked {s : St} (h : Reached s) {i : Nat} {ls : List Nat} (hi : UnderWay s i ls) :
    ls ≠ [] ∧ ls.length ≤ 32 ∧ (∀ l, s.locks l = ls.count l) ∧
      ∀ k, k < ls.length → s.entries[k]? = ls[k]?.map some := by
  have hs := reached_inv h
  obtain ⟨h1, _, h3⟩ : Holds s.entries 0 ls ∧ Ends s.entries ls.length ∧ ls ≠ [] := hs.ent i _ hi
  refine ⟨h3, by have := h1.1; simp [cap] at this; omega, fun l => ?_, fun k hk => by simpa using h1.2 k hk⟩
  have hset := sum_map_set (fun p : Pc => p.lines.count l) s.pcs i .idle _ hi
  have hz : ((s.pcs.set i .idle).map (fun p => p.lines.count l)).sum = 0 := by
    refine Classical.byContradiction fun hne => ?_
    obtain ⟨x, hx, hpos⟩ : ∃ p ∈ s.pcs.set i .idle, 0 < p.lines.count l := by
      refine Classical.byContradiction fun hno => hne ?_
      have : ∀ (ps : List Pc), (∀ p ∈ ps, ¬ 0 < p.lines.count l) →
          (ps.map (fun p => p.lines.count l)).sum = 0 := by
        intro ps
        induction ps with
        | nil => intro _; rfl
        | cons a as ih =>
          intro hps
          have h1 := hps a (by simp)
          have h2 := ih (fun p hp => hps p (by simp [hp]))
          simp only [List.map_cons, List.sum_cons]; omega
      exact this _ (fun p hp hpos => hno ⟨p, hp, hpos⟩)
    obtain ⟨j, hj⟩ := List.mem_iff_getElem?.1 hx
    have hij : i ≠ j := by
      rintro rfl
      rw [List.getElem?_set_self (List.getElem?_eq_some_iff.1 hi).1] at hj
      cases hj
      simp [Pc.lines] at hpos
    rw [List.getElem?_set_ne hij] at hj
    have ho : x.owner = true := by
      cases x <;> first | rfl | simp [Pc.lines] at hpos
    have h2 := countP_two Pc.owner s.pcs i j .idle _ _ rfl hi hj hij rfl ho
    have := one_owner hs
    omega
  have h4 := hs.locks l
  rw [hz] at hset
  have h5 : 0 + ls.count l = (s.pcs.map (fun p => p.lines.count l)).sum + 0 := hset
  omega

/-- C48: the completion never gives back a read lock that the cleaning does not have. -/
theorem unlock_held {s : St} (h : Reached s) {i k l : Nat} {ls : List Nat}
    (hi : s.pcs[i]? = some (.unlock k ls)) (hk : k < cap) (he : s.entries[k]? = some (some l)) :
    0 < s.locks l := by
  have hs := reached_inv h
  obtain ⟨h1, h2⟩ : Holds s.entries k ls ∧ Ends s.entries (k + ls.length) := hs.ent i _ hi
  cases ls with
  | nil =>
    rcases h2 with h2 | h2
    · simp at h2; omega
    · simp only [List.length_nil, Nat.add_zero] at h2
      rw [h2] at he; cases he
  | cons a as =>
    have ha := h1.2 0 (by simp)
    simp only [Nat.add_zero, List.getElem?_cons_zero, Option.map_some] at ha
    rw [ha] at he
    have : a = l := by simpa using he
    subst this
    have h3 := hs.locks a
    have h4 : (a :: as).count a ≤ _ :=
      le_sum_map (fun p : Pc => p.lines.count a) s.pcs _ (List.mem_of_getElem? hi)
    rw [List.count_cons_self] at h4
    omega

/-- C48: when no caller is inside, no line is locked and no reference is held, so management that
waits for the counter goes on. -/
theorem all_returned {s : St} (h : Reached s) (hid : ∀ p ∈ s.pcs, p = .idle ∨ p = .enter) :
    s.count = 0 ∧ ∀ l, s.locks l = 0 := by
  have hs := reached_inv h
  constructor
  · rw [hs.cnt]
    rw [List.countP_eq_zero]
    intro p hp
    rcases hid p hp with rfl | rfl <;> simp [Pc.inside]
  · intro l
    rw [hs.locks l]
    have : ∀ (ps : List Pc), (∀ p ∈ ps, p = .idle ∨ p = .enter) →
        (ps.map (fun p => p.lines.count l)).sum = 0 := by
      intro ps
      induction ps with
      | nil => intro _; rfl
      | cons a as ih =>
        intro hps
        have h2 := ih (fun p hp => hps p (by simp [hp]))
        simp only [List.map_cons, List.sum_cons, h2]
        rcases hps a (by simp) with rfl | rfl <;> simp [Pc.lines]
    exact this _ hid

/-- C48: while the counter is zero no order is under way and no scan is being made; a frozen counter
lets nobody in. -/
theorem zero_quiet {s : St} (h : Reached s) (hc : s.count = 0) {p : Pc} (hp : p ∈ s.pcs) :
    p = .idle ∨ p = .enter := by
  have hs := reached_inv h
  have h0 := hs.cnt
  rw [hc] at h0
  have := List.countP_eq_zero.1 h0.symm p hp
  cases p <;> simp [Pc.inside] at this ⊢

theorem frozen_closed {s s' : St} (hf : s.frozen = true) (i : Nat) (h : exec want s (.ref i) = some s') :
    s'.count = s.count := by
  simp only [exec] at h
  split at h
  · rw [if_pos hf] at h; cases h; rfl
  · cases h

/-- C48, partial: when nobody is between setting and resetting the flag, the next caller gets it.
Missing: this needs that no run so far ended without finding a line, see `stuck_after_empty_run`. -/
theorem runs_again_partial {s : St} (h : Reached s) (hl : s.leaked = false)
    (hno : ∀ p ∈ s.pcs, p.owner = false) : s.running = false := by
  have hs := reached_inv h
  have hfl := hs.flag
  rw [hl, List.countP_eq_zero.2 (fun p hp => by simp [hno p hp])] at hfl
  cases hr : s.running with
  | false => rfl
  | true => rw [hr] at hfl; simp at hfl

/-- The defect: once a run of a class has found no line (every dirty line of the class locked by
somebody, or none left), the flag stays set, and no request ever starts cleaning of that class again,
whatever happens. -/
theorem stuck_after_empty_run {s s' : St} (h : Reached s) (hl : s.leaked = true) {ops : List Op}
    (hr : Run want s ops s') : s'.orders = s.orders ∧ s'.running = true ∧
      ∀ p ∈ s'.pcs, p.owner = false := by
  have hs := reached_inv h
  have hq : ∀ s : St, Inv s → s.leaked = true → s.running = true ∧ ∀ p ∈ s.pcs, p.owner = false := by
    intro s hs hl
    have hfl := hs.flag
    rw [hl, if_pos rfl] at hfl
    have hrun : s.running = true := by
      cases hr : s.running with
      | true => rfl
      | false => rw [hr, if_neg (c := false = true) (by decide)] at hfl; omega
    rw [hrun, if_pos rfl] at hfl
    have h0 : s.pcs.countP Pc.owner = 0 := by omega
    exact ⟨hrun, fun p hp => by simpa using List.countP_eq_zero.1 h0 p hp⟩
  suffices hk : s'.orders = s.orders ∧ s'.leaked = true by
    have := hq s' (run_inv want_ok hs hr) hk.2
    exact ⟨hk.1, this⟩
  induction hr with
  | nil => exact ⟨rfl, hl⟩
  | snoc hr' he ih =>
    rename_i ops s1 s2 o
    obtain ⟨i1, i2⟩ := ih
    have hs1 := run_inv want_ok hs hr'
    obtain ⟨_, hno⟩ := hq s1 hs1 i2
    rw [← i1]
    cases o with
    | sorted i ls' =>
      simp only [exec] at he
      split at he
      · rename_i ls hi
        have := hno _ (List.mem_of_getElem? hi)
        simp [Pc.owner] at this
      · cases he
    | call i b =>
      simp only [exec] at he
      split at he
      · cases he; exact ⟨rfl, i2⟩
      · cases he
    | ref i =>
      simp only [exec] at he
      split at he
      · split at he <;> cases he <;> exact ⟨rfl, i2⟩
      · cases he
    | flag i =>
      simp only [exec] at he
      split at he
      · split at he <;> cases he <;> exact ⟨rfl, i2⟩
      · cases he
    | line i l =>
      simp only [exec] at he
      split at he
      · split at he
        · cases he; exact ⟨rfl, i2⟩
        · cases he
      · cases he
    | stop i =>
      simp only [exec] at he
      split at he
      · cases he; exact ⟨rfl, i2⟩
      · cases he
    | done i =>
      simp only [exec] at he
      split at he
      · cases he; exact ⟨rfl, i2⟩
      · cases he
    | next i =>
      simp only [exec] at he
      split at he
      · cases he; exact ⟨rfl, rfl⟩
      · split at he
        · split at he <;> cases he <;> exact ⟨rfl, i2⟩
        · cases he; exact ⟨rfl, i2⟩
      · cases he; exact ⟨rfl, i2⟩
      · cases he; exact ⟨rfl, i2⟩
      · cases he
    | freeze b =>
      simp only [exec] at he
      cases he; exact ⟨rfl, i2⟩

/-! Concrete runs. -/

/-- follow a list of steps. -/
def execAll (s : St) : List Op → Option St
  | [] => some s
  | o :: os => (exec want s o).bind (fun s' => execAll s' os)

theorem run_execAll {s0 s s' : St} {ops : List Op} (hr : Run want s0 ops s) (os : List Op)
    (h : execAll s os = some s') : Run want s0 (ops ++ os) s' := by
  induction os generalizing s ops with
  | nil => cases h; simpa using hr
  | cons o os ih =>
    simp only [execAll, Option.bind_eq_some_iff] at h
    obtain ⟨a, ha, hb⟩ := h
    have := ih (.snoc hr ha) hb
    simpa using this

/-- entries left over from earlier use. -/
def es0 : List (Option Nat) := List.replicate cap (some 77)

/-- two callers; the first finds lines 9 and 4, the second is turned away; the order is under way. -/
def opsA : List Op :=
  [.call 0 false, .ref 0, .call 1 false, .ref 1, .flag 0, .flag 1, .line 0 9, .line 0 4, .stop 0,
   .sorted 0 [4, 9], .next 1]

example : ∃ s, Reached s ∧ UnderWay s 0 [4, 9] ∧ s.locks 9 = 1 ∧ s.count = 1 := by
  have h : (execAll (init 2 es0) opsA).map (fun s => (s.pcs[0]?, s.locks 9, s.count)) =
      some (some (.fly [4, 9]), 1, 1) := by decide +kernel
  obtain ⟨s, hs, hv⟩ := Option.map_eq_some_iff.1 h
  simp only [Prod.mk.injEq] at hv
  exact ⟨s, ⟨2, es0, _, by decide, run_execAll .nil _ hs⟩, hv.1, hv.2.1, hv.2.2⟩

/-- ... and ends: locks and reference given back, the next caller can start. -/
example : (execAll (init 2 es0) (opsA ++ [.done 0, .next 0, .next 0, .next 0, .next 0, .next 0])).map
    (fun s => (s.pcs, s.locks 9, s.locks 77, s.count, s.running)) =
      some ([.idle, .idle], 0, 0, 0, false) := by decide +kernel

/-- a run that finds nothing leaves the class without cleaning for ever. -/
example : ∃ s, Reached s ∧ s.leaked = true ∧ (∀ p ∈ s.pcs, p = .idle ∨ p = .enter) ∧
    ∀ ops s', Run want s ops s' → s'.orders = [] := by
  have h : (execAll (init 2 es0) [.call 0 false, .ref 0, .flag 0, .stop 0, .next 0, .next 0]).map
      (fun s => (s.leaked, s.pcs, s.orders)) = some (true, [.idle, .idle], []) := by decide +kernel
  obtain ⟨s, hs, hv⟩ := Option.map_eq_some_iff.1 h
  simp only [Prod.mk.injEq] at hv
  have hr : Reached s := ⟨2, es0, _, by decide, run_execAll .nil _ hs⟩
  refine ⟨s, hr, hv.1, ?_, fun ops s' hrun => ?_⟩
  · rw [hv.2.1]; simp
  · rw [(stuck_after_empty_run hr hv.1 hrun).1, hv.2.2]

end Verif.LruClean
