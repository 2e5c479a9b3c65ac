import Verif.Lemma.CoreMngt

/-!
Adding a core (`Verif.CoreMngt.add`): the flags of the context say what has been done, so that undoing by the
flags brings the place back.
-/

namespace Verif.CoreMngt

/-- The place is free: nothing of a core is in it, but that its front volume may be left over. -/
structure Free (sl : Slot) : Prop where
  valid : sl.valid = false
  bit : sl.bit = false
  added : sl.added = false
  opened : sl.opened = false
  counters : sl.counters = false
  cutoff : sl.cutoff = false
  cleaning : sl.cleaning = false
  priv : sl.vol.priv = false
  vopen : sl.vol.opened = false

/-- The flags of the context say what is done. -/
structure CI (sl0 : Slot) (n l : Int) (c : Ctx) : Prop where
  valid : c.slot.valid = c.counters
  bit : c.slot.bit = c.counters
  added : c.slot.added = c.counters
  opened : c.slot.opened = c.counters
  counters : c.slot.counters = c.counters
  cutoff : c.slot.cutoff = c.cutoff
  cleaning : c.slot.cleaning = c.cleanAdded
  priv : c.slot.vol.priv = c.volInited
  vopen : c.slot.vol.opened = c.volOpened
  vo : c.volOpened = true → c.volInited = true
  vi : c.volInited = true → c.slot.vol.typ = true ∧ c.slot.hasVol = true
  front : c.slot.front = sl0.front
  data : c.slot.data = sl0.data
  io : c.slot.io = sl0.io
  count : c.count = n + b2i c.counters
  leaked : (c.leaked : Int) = l

theorem CI.start {s : St} {sl : Slot} (h : Free sl) : CI sl s.count s.leaked (Ctx.start s sl) := by
  constructor <;> simp [Ctx.start, b2i, h.valid, h.bit, h.added, h.opened, h.counters, h.cutoff, h.cleaning,
    h.priv, h.vopen]

/-- What the part `f` of `insert` has: it keeps the flags right, needs `pre` and leaves `post`. -/
def Spec (sl0 : Slot) (n l : Int) (pre post : Ctx → Prop) (f : Ctx → Bool × Ctx) : Prop :=
  ∀ c, CI sl0 n l c → pre c → CI sl0 n l (f c).2 ∧ ((f c).1 = true → post (f c).2)

theorem Spec.andThen {sl0 : Slot} {n l : Int} {p q r : Ctx → Prop} {f g : Ctx → Bool × Ctx}
    (hf : Spec sl0 n l p q f) (hg : Spec sl0 n l q r g) : Spec sl0 n l p r (andThen f g) := by
  intro c hc hp
  have h1 := hf c hc hp
  unfold CoreMngt.andThen
  by_cases e : (f c).1 = true
  · rw [if_pos e]; exact hg _ h1.1 (h1.2 e)
  · rw [if_neg e]; exact ⟨h1.1, fun h => absurd h e⟩

/-- How far `insert` has come. -/
structure Pr (i : AddIn) (m : Nat) (att : Bool) (c : Ctx) : Prop where
  name : 1 ≤ m → c.slot.name = i.name
  uuid : 2 ≤ m → c.slot.uuid = i.uuid
  vi : c.volInited = decide (3 ≤ m)
  vo : c.volOpened = decide (4 ≤ m)
  cl : c.cleanAdded = (att && decide (6 ≤ m))
  cu : c.cutoff = decide (7 ≤ m)
  co : c.counters = decide (8 ≤ m)

theorem spec_name (i : AddIn) (sl0 : Slot) (n l : Int) (att : Bool) :
    Spec sl0 n l (Pr i 0 att) (Pr i 1 att) (stName i) := by
  intro c hc hp
  unfold stName
  by_cases e : i.nameOk = true
  · rw [if_pos e]
    refine ⟨⟨hc.valid, hc.bit, hc.added, hc.opened, hc.counters, hc.cutoff, hc.cleaning, hc.priv, hc.vopen,
      hc.vo, hc.vi, hc.front, hc.data, hc.io, hc.count, hc.leaked⟩, fun _ => ?_⟩
    exact ⟨fun _ => rfl, by omega, hp.vi, hp.vo, hp.cl, hp.cu, hp.co⟩
  · rw [if_neg e]; exact ⟨hc, fun h => by cases h⟩

theorem spec_uuid (i : AddIn) (sl0 : Slot) (n l : Int) (att : Bool) :
    Spec sl0 n l (Pr i 1 att) (Pr i 2 att) (stUuid i) := by
  intro c hc hp
  unfold stUuid
  by_cases e : i.uuidOk = true
  · rw [if_pos e]
    refine ⟨⟨hc.valid, hc.bit, hc.added, hc.opened, hc.counters, hc.cutoff, hc.cleaning, hc.priv, hc.vopen,
      hc.vo, hc.vi, hc.front, hc.data, hc.io, hc.count, hc.leaked⟩, fun _ => ?_⟩
    exact ⟨fun _ => hp.name (by omega), fun _ => rfl, hp.vi, hp.vo, hp.cl, hp.cu, hp.co⟩
  · rw [if_neg e]; exact ⟨hc, fun h => by cases h⟩

theorem spec_vol (i : AddIn) (sl0 : Slot) (n l : Int) (att : Bool) :
    Spec sl0 n l (Pr i 2 att) (Pr i 3 att) (stVol i) := by
  intro c hc hp
  have hv : c.volInited = false := hp.vi
  have ho : c.volOpened = false := hp.vo
  have hpr : c.slot.vol.priv = false := by rw [hc.priv]; exact hv
  have hop : c.slot.vol.opened = false := by rw [hc.vopen]; exact ho
  unfold stVol
  by_cases e : i.volInit = .ok
  · rw [if_pos e]
    refine ⟨⟨hc.valid, hc.bit, hc.added, hc.opened, hc.counters, hc.cutoff, hc.cleaning, ?_, ?_,
      fun _ => rfl, ?_, hc.front, hc.data, hc.io, hc.count, ?_⟩, fun _ => ?_⟩
    · rfl
    · exact ho.symm
    · intro _; exact ⟨rfl, rfl⟩
    · have := hc.leaked; simp [Vol.lost, hpr]; exact this
    · exact ⟨fun _ => hp.name (by omega), fun _ => hp.uuid (by omega), rfl, ho, hp.cl, hp.cu, hp.co⟩
  · rw [if_neg e]
    refine ⟨⟨hc.valid, hc.bit, hc.added, hc.opened, hc.counters, hc.cutoff, hc.cleaning, ?_, ?_,
      hc.vo, ?_, hc.front, hc.data, hc.io, hc.count, ?_⟩, fun h => by cases h⟩
    · show (c.slot.vol.init i.volInit).priv = c.volInited
      rw [hv]
      cases h : i.volInit
      · exact absurd h e
      · exact hpr
      · rfl
      · rfl
    · show (c.slot.vol.init i.volInit).opened = c.volOpened
      rw [ho]
      cases h : i.volInit
      · exact absurd h e
      · exact hop
      · exact hop
      · rfl
    · intro h; have h' : c.volInited = true := h; rw [hv] at h'; cases h'
    · have := hc.leaked; simp [Vol.lost, hpr]; exact this

theorem spec_open (i : AddIn) (sl0 : Slot) (n l : Int) (att : Bool) :
    Spec sl0 n l (Pr i 3 att) (Pr i 4 att) (stOpen i) := by
  intro c hc hp
  unfold stOpen
  by_cases e : (i.metaOk && i.volOpen) = true
  · rw [if_pos e]
    refine ⟨⟨hc.valid, hc.bit, hc.added, hc.opened, hc.counters, hc.cutoff, hc.cleaning, hc.priv, rfl,
      fun _ => hp.vi, hc.vi, hc.front, hc.data, hc.io, hc.count, hc.leaked⟩, fun _ => ?_⟩
    exact ⟨fun _ => hp.name (by omega), fun _ => hp.uuid (by omega), hp.vi, rfl, hp.cl, hp.cu, hp.co⟩
  · rw [if_neg e]; exact ⟨hc, fun h => by cases h⟩

theorem spec_len (i : AddIn) (sl0 : Slot) (n l : Int) (att : Bool) :
    Spec sl0 n l (Pr i 4 att) (Pr i 5 att) (stLen i) := by
  intro c hc hp
  exact ⟨hc, fun _ => ⟨fun _ => hp.name (by omega), fun _ => hp.uuid (by omega), hp.vi, hp.vo, hp.cl, hp.cu,
    hp.co⟩⟩

theorem spec_clean (i : AddIn) (sl0 : Slot) (n l : Int) (att : Bool) :
    Spec sl0 n l (Pr i 5 att) (Pr i 6 att) (stClean att i) := by
  intro c hc hp
  unfold stClean
  by_cases e : att = true
  · rw [if_pos e]
    by_cases e2 : i.cleanOk = true
    · rw [if_pos e2]
      refine ⟨⟨hc.valid, hc.bit, hc.added, hc.opened, hc.counters, hc.cutoff, rfl, hc.priv, hc.vopen,
        hc.vo, hc.vi, hc.front, hc.data, hc.io, hc.count, hc.leaked⟩, fun _ => ?_⟩
      exact ⟨fun _ => hp.name (by omega), fun _ => hp.uuid (by omega), hp.vi, hp.vo, by rw [e]; rfl, hp.cu,
        hp.co⟩
    · rw [if_neg e2]; exact ⟨hc, fun h => by cases h⟩
  · rw [if_neg e]
    have ef : att = false := by cases att <;> simp_all
    subst ef
    exact ⟨hc, fun _ => ⟨fun _ => hp.name (by omega), fun _ => hp.uuid (by omega), hp.vi, hp.vo, hp.cl, hp.cu,
      hp.co⟩⟩

theorem spec_cutoff (i : AddIn) (sl0 : Slot) (n l : Int) (att : Bool) :
    Spec sl0 n l (Pr i 6 att) (Pr i 7 att) (stCutoff i) := by
  intro c hc hp
  unfold stCutoff
  by_cases e : i.cutoffOk = true
  · rw [if_pos e]
    refine ⟨⟨hc.valid, hc.bit, hc.added, hc.opened, hc.counters, rfl, hc.cleaning, hc.priv, hc.vopen,
      hc.vo, hc.vi, hc.front, hc.data, hc.io, hc.count, hc.leaked⟩, fun _ => ?_⟩
    exact ⟨fun _ => hp.name (by omega), fun _ => hp.uuid (by omega), hp.vi, hp.vo, hp.cl, rfl, hp.co⟩
  · rw [if_neg e]; exact ⟨hc, fun h => by cases h⟩

theorem spec_mark (i : AddIn) (sl0 : Slot) (n l : Int) (att : Bool) :
    Spec sl0 n l (Pr i 7 att) (Pr i 8 att) (stMark i) := by
  intro c hc hp
  have h0 : c.counters = false := hp.co
  unfold stMark
  by_cases e : i.countersOk = true
  · rw [if_pos e]
    refine ⟨⟨rfl, rfl, rfl, rfl, rfl, hc.cutoff, hc.cleaning, hc.priv, hc.vopen,
      hc.vo, hc.vi, hc.front, hc.data, hc.io, ?_, hc.leaked⟩, fun _ => ?_⟩
    · have := hc.count
      simp [b2i, h0] at this ⊢
      omega
    · exact ⟨fun _ => hp.name (by omega), fun _ => hp.uuid (by omega), hp.vi, hp.vo, hp.cl, hp.cu, rfl⟩
  · rw [if_neg e]; exact ⟨hc, fun h => by cases h⟩

theorem spec_seq (i : AddIn) (sl0 : Slot) (n l : Int) (att : Bool) :
    Spec sl0 n l (Pr i 8 att) (Pr i 9 att) (stSeq i) := by
  intro c hc hp
  exact ⟨hc, fun _ => ⟨fun _ => hp.name (by omega), fun _ => hp.uuid (by omega), hp.vi, hp.vo, hp.cl, hp.cu,
    hp.co⟩⟩

theorem spec_insert (i : AddIn) (sl0 : Slot) (n l : Int) (att : Bool) :
    Spec sl0 n l (Pr i 0 att) (Pr i 9 att) (insert att i) :=
  (spec_name i sl0 n l att).andThen ((spec_uuid i sl0 n l att).andThen ((spec_vol i sl0 n l att).andThen
    ((spec_open i sl0 n l att).andThen ((spec_len i sl0 n l att).andThen ((spec_clean i sl0 n l att).andThen
      ((spec_cutoff i sl0 n l att).andThen ((spec_mark i sl0 n l att).andThen (spec_seq i sl0 n l att))))))))

/-- What an undone place is. -/
structure Undone (sl0 : Slot) (f : Vol) (n l : Int) (c : Ctx) : Prop where
  free : Free c.slot
  front : c.slot.front = f
  data : c.slot.data = sl0.data
  io : c.slot.io = sl0.io
  count : c.count = n
  leaked : (c.leaked : Int) = l

theorem he_valid (c : Ctx) : (handleError c).slot.valid = (c.slot.valid && !c.counters) := by
  obtain ⟨sl, cnt, lk, us, vi, vo, ca, co, cu⟩ := c
  cases co <;> cases ca <;> cases cu <;> cases vo <;> cases vi <;> simp [handleError, undoMark, Vol.close, Vol.deinit]

theorem he_bit (c : Ctx) : (handleError c).slot.bit = (c.slot.bit && !c.counters) := by
  obtain ⟨sl, cnt, lk, us, vi, vo, ca, co, cu⟩ := c
  cases co <;> cases ca <;> cases cu <;> cases vo <;> cases vi <;> simp [handleError, undoMark, Vol.close, Vol.deinit]

theorem he_added (c : Ctx) : (handleError c).slot.added = (c.slot.added && !c.counters) := by
  obtain ⟨sl, cnt, lk, us, vi, vo, ca, co, cu⟩ := c
  cases co <;> cases ca <;> cases cu <;> cases vo <;> cases vi <;> simp [handleError, undoMark, Vol.close, Vol.deinit]

theorem he_opened (c : Ctx) : (handleError c).slot.opened = (c.slot.opened && !c.counters) := by
  obtain ⟨sl, cnt, lk, us, vi, vo, ca, co, cu⟩ := c
  cases co <;> cases ca <;> cases cu <;> cases vo <;> cases vi <;> simp [handleError, undoMark, Vol.close, Vol.deinit]

theorem he_counters (c : Ctx) : (handleError c).slot.counters = (c.slot.counters && !c.counters) := by
  obtain ⟨sl, cnt, lk, us, vi, vo, ca, co, cu⟩ := c
  cases co <;> cases ca <;> cases cu <;> cases vo <;> cases vi <;> simp [handleError, undoMark, Vol.close, Vol.deinit]

theorem he_cutoff (c : Ctx) : (handleError c).slot.cutoff = (c.slot.cutoff && !c.cutoff) := by
  obtain ⟨sl, cnt, lk, us, vi, vo, ca, co, cu⟩ := c
  cases co <;> cases ca <;> cases cu <;> cases vo <;> cases vi <;> simp [handleError, undoMark, Vol.close, Vol.deinit]

theorem he_cleaning (c : Ctx) : (handleError c).slot.cleaning = (c.slot.cleaning && !c.cleanAdded) := by
  obtain ⟨sl, cnt, lk, us, vi, vo, ca, co, cu⟩ := c
  cases co <;> cases ca <;> cases cu <;> cases vo <;> cases vi <;> simp [handleError, undoMark, Vol.close, Vol.deinit]

theorem he_vol_priv (c : Ctx) : (handleError c).slot.vol.priv = (c.slot.vol.priv && !c.volInited) := by
  obtain ⟨sl, cnt, lk, us, vi, vo, ca, co, cu⟩ := c
  cases co <;> cases ca <;> cases cu <;> cases vo <;> cases vi <;> simp [handleError, undoMark, Vol.close, Vol.deinit]

theorem he_vol_opened (c : Ctx) : (handleError c).slot.vol.opened = (c.slot.vol.opened && !c.volOpened) := by
  obtain ⟨sl, cnt, lk, us, vi, vo, ca, co, cu⟩ := c
  cases co <;> cases ca <;> cases cu <;> cases vo <;> cases vi <;> simp [handleError, undoMark, Vol.close, Vol.deinit]

theorem he_front (c : Ctx) : (handleError c).slot.front = c.slot.front := by
  obtain ⟨sl, cnt, lk, us, vi, vo, ca, co, cu⟩ := c
  cases co <;> cases ca <;> cases cu <;> cases vo <;> cases vi <;> rfl

theorem he_data (c : Ctx) : (handleError c).slot.data = c.slot.data := by
  obtain ⟨sl, cnt, lk, us, vi, vo, ca, co, cu⟩ := c
  cases co <;> cases ca <;> cases cu <;> cases vo <;> cases vi <;> rfl

theorem he_io (c : Ctx) : (handleError c).slot.io = c.slot.io := by
  obtain ⟨sl, cnt, lk, us, vi, vo, ca, co, cu⟩ := c
  cases co <;> cases ca <;> cases cu <;> cases vo <;> cases vi <;> rfl

theorem he_leaked (c : Ctx) : (handleError c).leaked = c.leaked := by
  obtain ⟨sl, cnt, lk, us, vi, vo, ca, co, cu⟩ := c
  cases co <;> cases ca <;> cases cu <;> cases vo <;> cases vi <;> rfl

theorem he_count (c : Ctx) : (handleError c).count = c.count - b2i c.counters := by
  obtain ⟨sl, cnt, lk, us, vi, vo, ca, co, cu⟩ := c
  cases co <;> cases ca <;> cases cu <;> cases vo <;> cases vi <;> simp [handleError, undoMark, b2i]

/-- Undoing by the flags frees the place, whatever the front volume is. -/
theorem handleError_spec {sl0 : Slot} {n l : Int} {c : Ctx} (h : CI sl0 n l c) (f : Vol) (m : Nat) :
    Undone sl0 f n (l + m) (handleError { c with slot := { c.slot with front := f }, leaked := c.leaked + m }) := by
  refine ⟨⟨?_, ?_, ?_, ?_, ?_, ?_, ?_, ?_, ?_⟩, ?_, ?_, ?_, ?_, ?_⟩
  · rw [he_valid]; simp [h.valid]
  · rw [he_bit]; simp [h.bit]
  · rw [he_added]; simp [h.added]
  · rw [he_opened]; simp [h.opened]
  · rw [he_counters]; simp [h.counters]
  · rw [he_cutoff]; simp [h.cutoff]
  · rw [he_cleaning]; simp [h.cleaning]
  · rw [he_vol_priv]; simp [h.priv]
  · rw [he_vol_opened]; simp [h.vopen]
  · rw [he_front]
  · rw [he_data]; exact h.data
  · rw [he_io]; exact h.io
  · rw [he_count]; have := h.count; simp only at this ⊢; omega
  · rw [he_leaked]; have := h.leaked; simp only at this ⊢; omega

end Verif.CoreMngt
