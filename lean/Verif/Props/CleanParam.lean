import Verif.Model.CleanParam
import Verif.Lemma.Common

/-! C66: parameters of cleaning keep to their ranges and mean what they say. -/

namespace Verif.CleanParam

/-! ## Specification -/

/-- Least and greatest value of a parameter, by policy (0 nop, 1 ALRU, 2 ACP) and number. -/
def range : Nat → Nat → Option (Nat × Nat)
  | 1, 0 => some (0, 3600)
  | 1, 1 => some (1, 3600)
  | 1, 2 => some (1, 10000)
  | 1, 3 => some (0, 1000000)
  | 1, 4 => some (0, 100)
  | 2, 0 => some (0, 10000)
  | 2, 1 => some (1, 10000)
  | _, _ => none

/-- A value may be given to a parameter. -/
def Allowed (t id v : Nat) : Prop := ∃ lo hi, range t id = some (lo, hi) ∧ lo ≤ v ∧ v ≤ hi

/-- Calls that change parameters. -/
inductive Step : St → St → Prop
  | set (s t id v) : Step s (set s t id v).1
  | alru (s) : Step s { s with cfg := setupAlru s.cfg }
  | acp (s) : Step s { s with cfg := setupAcp s.cfg }
  | mode (s b d) : Step s { s with standby := b, attached := d }

/-- A cache that was set up. -/
def Start (s : St) : Prop := ∃ c, s.cfg = setupAcp (setupAlru c)

/-! ## Setting and getting -/

theorem refused_iff (v lo hi : Nat) : refused v lo hi = false ↔ lo ≤ v ∧ v ≤ hi := by
  unfold refused; simp

theorem setOps_cases (s : St) (t id v : Nat) :
    (setOps s t id v = (s, .inval) ∧ ¬ Allowed t id v) ∨
    ((setOps s t id v).2 = .ok ∧ Allowed t id v ∧ (setOps s t id v).1.standby = s.standby ∧
      (setOps s t id v).1.attached = s.attached ∧
      (setOps s t id v).1.kicks = (if id = 0 then s.kicks + 1 else s.kicks) ∧
      ∀ t' id', getOps (setOps s t id v).1.cfg t' id' = if t' = t ∧ id' = id then some v else getOps s.cfg t' id') := by
  have hno : ∀ t id, range t id = none → ¬ Allowed t id v := by
    rintro t id h ⟨lo, hi, h', _⟩; rw [h] at h'; cases h'
  match t, id with
  | 0, id => exact Or.inl ⟨rfl, hno _ _ rfl⟩
  | t + 3, id => exact Or.inl ⟨rfl, hno _ _ rfl⟩
  | 1, id + 5 => exact Or.inl ⟨rfl, hno _ _ rfl⟩
  | 2, id + 2 => exact Or.inl ⟨rfl, hno _ _ rfl⟩
  | 1, 0 | 1, 1 | 1, 2 | 1, 3 | 1, 4 | 2, 0 | 2, 1 =>
    simp only [setOps, setAlru, setAcp]
    split
    · rename_i h
      refine Or.inl ⟨rfl, ?_⟩
      rintro ⟨lo, hi, h1, h2⟩
      cases h1
      rw [(refused_iff _ _ _).2 h2] at h
      cases h
    · rename_i h
      have h := (refused_iff _ _ _).1 (by simpa using h)
      refine Or.inr ⟨rfl, ⟨_, _, rfl, h.1, h.2⟩, rfl, rfl, rfl, ?_⟩
      intro t' id'
      match t', id' with
      | 0, _ => rfl
      | t + 3, _ => simp [getOps]
      | 1, 0 | 1, 1 | 1, 2 | 1, 3 | 1, 4 | 2, 0 | 2, 1 => rfl
      | 1, k + 5 => simp [getOps, getAlru]
      | 2, k + 2 => simp [getOps, getAcp]

/-- When a parameter can be set. -/
theorem set_ok_iff (s : St) (t id v : Nat) :
    (set s t id v).2 = .ok ↔ s.standby = false ∧ s.attached = true ∧ Allowed t id v := by
  unfold set
  split
  · rename_i h
    simp only [reduceCtorEq, false_iff]
    rintro ⟨_, _, lo, hi, h1, _⟩
    match t, id, h with
    | t + 3, id, _ => cases h1
  · split
    · rename_i h; simp [h]
    · split
      · rename_i h; simp at h; simp [h]
      · rename_i h1 h2
        simp at h1 h2
        rcases setOps_cases s t id v with ⟨a, b⟩ | ⟨a, b, _⟩
        · simp [a, b]
        · simp [a, b, h1, h2]

/-- A parameter set is read back, and no other parameter changes. -/
theorem set_effect (s : St) (t id v : Nat) (h : (set s t id v).2 = .ok) :
    get (set s t id v).1 t id = (.ok, some v) ∧
    ∀ t' id', (t', id') ≠ (t, id) → get (set s t id v).1 t' id' = get s t' id' := by
  obtain ⟨h1, h2, h3⟩ := (set_ok_iff s t id v).1 h
  have h4 : ¬ 3 ≤ t := by
    intro h4
    obtain ⟨lo, hi, h5, _⟩ := h3
    match t, id, h4 with
    | t + 3, id, _ => cases h5
  have he : set s t id v = setOps s t id v := by unfold set; simp [h1, h2, h4]
  rw [he]
  rcases setOps_cases s t id v with ⟨_, b⟩ | ⟨_, _, c, _, _, d⟩
  · exact absurd h3 b
  · constructor
    · unfold get; rw [if_neg h4, c, h1, d t id]; simp
    · intro t' id' hne
      have hd := d t' id'
      rw [if_neg (by rintro ⟨rfl, rfl⟩; exact hne rfl)] at hd
      unfold get
      rw [c, hd]

/-- A call that fails changes nothing. -/
theorem set_fails (s : St) (t id v : Nat) (h : (set s t id v).2 ≠ .ok) : (set s t id v).1 = s := by
  unfold set at h ⊢
  split
  · rfl
  · split
    · rfl
    · split
      · rfl
      · rename_i h1 h2 h3
        rw [if_neg h1, if_neg h2, if_neg h3] at h
        rcases setOps_cases s t id v with ⟨a, _⟩ | ⟨a, _⟩
        · rw [a]
        · exact absurd a h

/-- Which error a call returns. -/
theorem set_errors (s : St) (t id v : Nat) :
    ((set s t id v).2 = .standby ↔ t < 3 ∧ s.standby = true) ∧
    ((set s t id v).2 = .detached ↔ t < 3 ∧ s.standby = false ∧ s.attached = false) := by
  unfold set
  split
  · simp; omega
  · rename_i h0
    have h0 : t < 3 := by omega
    split
    · rename_i h; simp [h, h0]
    · split
      · rename_i h; simp_all
      · rename_i h1 h2
        simp at h1 h2
        rcases setOps_cases s t id v with ⟨a, _⟩ | ⟨a, _⟩ <;> simp [a, h1, h2]

/-- The cleaner is woken when its time to wake up was changed, and only then. -/
theorem set_kicks (s : St) (t id v : Nat) :
    (set s t id v).1.kicks = if (set s t id v).2 = .ok ∧ id = 0 then s.kicks + 1 else s.kicks := by
  by_cases h : (set s t id v).2 = .ok
  · obtain ⟨h1, h2, h3⟩ := (set_ok_iff s t id v).1 h
    have h4 : ¬ 3 ≤ t := by
      intro h4
      obtain ⟨lo, hi, h5, _⟩ := h3
      match t, id, h4 with
      | t + 3, id, _ => cases h5
    have he : set s t id v = setOps s t id v := by unfold set; simp [h1, h2, h4]
    rw [he] at h ⊢
    rcases setOps_cases s t id v with ⟨_, b⟩ | ⟨_, _, _, _, d, _⟩
    · exact absurd h3 b
    · rw [d]; simp [h]
  · rw [set_fails s t id v h]; simp [h]

/-- When a parameter can be read. -/
theorem get_ok_iff (s : St) (t id : Nat) :
    (get s t id).1 = .ok ↔ s.standby = false ∧ (range t id).isSome = true := by
  unfold get
  match t, id with
  | 0, id => cases h : s.standby <;> simp [getOps, range]
  | t + 3, id => simp [range]
  | 1, 0 | 1, 1 | 1, 2 | 1, 3 | 1, 4 | 2, 0 | 2, 1 => cases h : s.standby <;> simp [getOps, getAlru, getAcp, range]
  | 1, k + 5 => cases h : s.standby <;> simp [getOps, getAlru, range]
  | 2, k + 2 => cases h : s.standby <;> simp [getOps, getAcp, range]

/-- All parameters are in their ranges. -/
def Good (c : Cfg) : Prop := ∀ t id v, getOps c t id = some v → Allowed t id v

theorem good_iff (c : Cfg) : Good c ↔ c.aWake ≤ 3600 ∧ (1 ≤ c.aStale ∧ c.aStale ≤ 3600) ∧ (1 ≤ c.aMax ∧ c.aMax ≤ 10000) ∧
    c.aAct ≤ 1000000 ∧ c.aRatio ≤ 100 ∧ c.pWake ≤ 10000 ∧ (1 ≤ c.pMax ∧ c.pMax ≤ 10000) := by
  constructor
  · intro h
    have key : ∀ t id v lo hi, getOps c t id = some v → range t id = some (lo, hi) → lo ≤ v ∧ v ≤ hi := by
      intro t id v lo hi h1 h2
      obtain ⟨lo', hi', h3, h4⟩ := h t id v h1
      rw [h2] at h3; cases h3; exact h4
    exact ⟨(key 1 0 _ _ _ rfl rfl).2, key 1 1 _ _ _ rfl rfl, key 1 2 _ _ _ rfl rfl, (key 1 3 _ _ _ rfl rfl).2,
      (key 1 4 _ _ _ rfl rfl).2, (key 2 0 _ _ _ rfl rfl).2, key 2 1 _ _ _ rfl rfl⟩
  · rintro ⟨h1, h2, h3, h4, h5, h6, h7⟩ t id v h
    match t, id with
    | 0, id => cases h
    | t + 3, id => cases h
    | 1, 0 => cases h; exact ⟨_, _, rfl, Nat.zero_le _, h1⟩
    | 1, 1 => cases h; exact ⟨_, _, rfl, h2.1, h2.2⟩
    | 1, 2 => cases h; exact ⟨_, _, rfl, h3.1, h3.2⟩
    | 1, 3 => cases h; exact ⟨_, _, rfl, Nat.zero_le _, h4⟩
    | 1, 4 => cases h; exact ⟨_, _, rfl, Nat.zero_le _, h5⟩
    | 2, 0 => cases h; exact ⟨_, _, rfl, Nat.zero_le _, h6⟩
    | 2, 1 => cases h; exact ⟨_, _, rfl, h7.1, h7.2⟩
    | 1, k + 5 => cases h
    | 2, k + 2 => cases h

/-- Whatever is called, every parameter that can be read is in its range. -/
theorem in_range (s : St) (h : Reach Start Step s) : Good s.cfg := by
  refine Reach.inv (P := fun s => Good s.cfg) ?_ ?_ s h
  · rintro s ⟨c, hc⟩
    rw [hc, good_iff]; simp [setupAcp, setupAlru]
  · intro s t hg hst
    cases hst with
    | set t id v =>
      by_cases hr : (set s t id v).2 = .ok
      · obtain ⟨h1, h2, h3⟩ := (set_ok_iff s t id v).1 hr
        have he : set s t id v = setOps s t id v := by
          unfold set
          have h4 : ¬ 3 ≤ t := by
            intro h4
            obtain ⟨lo, hi, h5, _⟩ := h3
            match t, id, h4 with
            | t + 3, id, _ => cases h5
          simp [h1, h2, h4]
        rw [he]
        rcases setOps_cases s t id v with ⟨_, b⟩ | ⟨_, _, _, _, _, d⟩
        · exact absurd h3 b
        · intro t' id' v' hv
          rw [d t' id'] at hv
          split at hv
          · rename_i hh; cases hv; rw [hh.1, hh.2]; exact h3
          · exact hg t' id' v' hv
      · simp only [set_fails s t id v hr]; exact hg
    | alru => rw [good_iff] at hg ⊢; simp only [setupAlru]; omega
    | acp => rw [good_iff] at hg ⊢; simp only [setupAcp]; omega
    | mode b d => exact hg

/-! ## When ALRU cleans -/

/-- The time since the last request is told right although it is kept in 32 bits of milliseconds. `at_`, when that was,
less than 2^32 milliseconds ago. -/
theorem active_exact (c : Cfg) (now at_ : Nat) (h1 : at_ ≤ now) (h2 : now / 1000 - at_ / 1000 < 2 ^ 32) :
    active c now (at_ / 1000 % 2 ^ 32) = true ↔ now / 1000 - at_ / 1000 < c.aAct := by
  have h3 : at_ / 1000 ≤ now / 1000 := Nat.div_le_div_right h1
  unfold active W32
  rw [decide_eq_true_iff]
  have : (now / 1000 % 4294967296 + 4294967296 - at_ / 1000 % 2 ^ 32) % 4294967296 = now / 1000 - at_ / 1000 := by omega
  rw [this]

/-- The same for the last run that found nothing to clean, in seconds. -/
theorem later_exact (c : Cfg) (now at_ : Nat) (h1 : at_ ≤ now) (h2 : now / 1000000 - at_ / 1000000 < 2 ^ 32) :
    later c now (at_ / 1000000 % 2 ^ 32) = true ↔ now / 1000000 - at_ / 1000000 ≤ c.aWake := by
  have h3 : at_ / 1000000 ≤ now / 1000000 := Nat.div_le_div_right h1
  unfold later W32
  rw [decide_eq_true_iff]
  have : (now / 1000000 % 4294967296 + 4294967296 - at_ / 1000000 % 2 ^ 32) % 4294967296 =
    now / 1000000 - at_ / 1000000 := by omega
  rw [this]

/-- Cleaning is possible if the part of dirty lines is at its limit, or if there was no request for long enough and the
last empty run was long enough ago. Partial: missing are caches of so many dirty lines that a hundred times their number
exceeds 32 bits (see C28), and gaps of 2^32 milliseconds or seconds and more. -/
theorem possible_partial (s : St) (h : Reach Start Step s) (now req run dirty size : Nat) (h1 : req ≤ now) (h2 : run ≤ now)
    (h3 : now / 1000 - req / 1000 < 2 ^ 32) (h4 : now / 1000000 - run / 1000000 < 2 ^ 32)
    (h5 : dirty * 100 < 2 ^ 32) (h6 : 0 < size) :
    let over := s.cfg.aRatio < 100 ∧ s.cfg.aRatio * size ≤ dirty * 100
    ((possible s.cfg now (req / 1000 % 2 ^ 32) (run / 1000000 % 2 ^ 32) dirty size).1 = true ↔
      over ∨ (s.cfg.aAct ≤ now / 1000 - req / 1000 ∧ s.cfg.aWake < now / 1000000 - run / 1000000)) ∧
    ((possible s.cfg now (req / 1000 % 2 ^ 32) (run / 1000000 % 2 ^ 32) dirty size).2 = true ↔ over) := by
  intro over
  have hg := (good_iff _).1 (in_range s h)
  have hr : ratio s.cfg dirty size = true ↔ over := by
    show _ ↔ s.cfg.aRatio < 100 ∧ s.cfg.aRatio * size ≤ dirty * 100
    unfold ratio W32
    rw [Nat.mod_eq_of_lt (by omega)]
    split
    · simp; omega
    · rw [decide_eq_true_iff, Nat.le_div_iff_mul_le h6]
      exact ⟨fun h => ⟨by omega, h⟩, fun h => h.2⟩
  have ha := active_exact s.cfg now req h1 h3
  have hl := later_exact s.cfg now run h2 h4
  unfold possible
  by_cases hr' : ratio s.cfg dirty size = true
  · rw [if_pos hr']; simp [hr.1 hr']
  · have ho : ¬ over := fun h => hr' (hr.2 h)
    rw [if_neg hr']
    by_cases ha' : active s.cfg now (req / 1000 % 2 ^ 32) = true
    · have := ha.1 ha'
      rw [if_pos ha']; simp only [ho, false_or, Bool.false_eq_true, false_iff]; exact ⟨by omega, trivial⟩
    · have hna : ¬ now / 1000 - req / 1000 < s.cfg.aAct := fun h => ha' (ha.2 h)
      rw [if_neg ha']
      by_cases hl' : later s.cfg now (run / 1000000 % 2 ^ 32) = true
      · have := hl.1 hl'
        rw [if_pos hl']; simp only [ho, false_or, Bool.false_eq_true, false_iff]; exact ⟨by omega, trivial⟩
      · have hnl : ¬ now / 1000000 - run / 1000000 ≤ s.cfg.aWake := fun h => hl' (hl.2 h)
        rw [if_neg hl', if_neg (by omega)]
        simp only [ho, false_or, Bool.false_eq_true, true_iff]; exact ⟨by omega, trivial⟩

/-- Without the limit of dirty lines being reached, the lines cleaned are those not written for longer than the time set;
Partial: from when the clock has counted that time, see `early_clock`. -/
theorem old_exact_partial (c : Cfg) (now ts : Nat) (h1 : c.aStale * 1000000 ≤ now) (h2 : now / 1000000 < 2 ^ 32) :
    old c false now ts = true ↔ ts + c.aStale < now / 1000000 := by
  unfold old stamp W32 W64
  simp only [Bool.false_eq_true, if_false, decide_eq_true_eq]
  have e1 : (now + 18446744073709551616 - c.aStale * 1000000) % 18446744073709551616 = now - c.aStale * 1000000 := by
    rw [show now + 18446744073709551616 - c.aStale * 1000000 = now - c.aStale * 1000000 + 18446744073709551616 by omega,
      Nat.add_mod_right, Nat.mod_eq_of_lt (by omega)]
  have e2 : (now - c.aStale * 1000000) / 1000000 = now / 1000000 - c.aStale := by omega
  rw [e1, e2, Nat.mod_eq_of_lt (by omega)]
  omega

/-- At the limit every line is, but one written in the last second the clock can count. -/
theorem old_over (c : Cfg) (now ts : Nat) : old c true now ts = true ↔ ts < 2 ^ 32 - 1 := by
  unfold old W32; simp

/-- The delay to the next run: none after cleaning, else the time to wake up, which does not overflow. -/
theorem delay_exact (s : St) (h : Reach Start Step s) (did : Bool) :
    delay s.cfg did = if did then 0 else (s.cfg.aWake * 1000 : Nat) := by
  have hg := (good_iff _).1 (in_range s h)
  unfold delay W32
  cases did
  · simp only [Bool.false_eq_true, if_false]
    rw [Nat.mod_eq_of_lt (by omega), if_pos (by omega)]
  · rfl

/-- With a clock that has not yet counted the time set, a line written right now is taken as old. -/
theorem early_clock : ∃ c now ts, Good c ∧ ts = now / 1000000 ∧ old c false now ts = true :=
  ⟨⟨20, 120, 100, 10000, 100, 10, 128⟩, 60000000, 60, (good_iff _).2 (by decide), by decide, by decide +kernel⟩

/-! ## Cases -/

def ex : St := ⟨⟨20, 120, 100, 10000, 100, 10, 128⟩, false, true, 0⟩

example : Reach Start Step ex := .init ⟨⟨0, 0, 0, 0, 0, 0, 0⟩, rfl⟩

example : set ex 1 4 50 = (⟨⟨20, 120, 100, 10000, 50, 10, 128⟩, false, true, 0⟩, .ok) := by decide

example : set ex 1 1 0 = (ex, .inval) ∧ set ex 0 0 1 = (ex, .inval) ∧ set { ex with attached := false } 2 0 7 =
    ({ ex with attached := false }, .detached) := by decide

/-- Half of the cache dirty with a limit of 50%: cleaning starts at once; with 51% only when idle. -/
example : possible { ex.cfg with aRatio := 50 } 5000000 5000 4 500 1000 = (true, true) ∧
    possible { ex.cfg with aRatio := 51 } 5000000 5000 4 500 1000 = (false, false) := by decide

end Verif.CleanParam
