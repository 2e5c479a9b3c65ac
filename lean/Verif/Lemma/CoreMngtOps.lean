import Verif.Lemma.CoreMngtStep3

/-!
What the operations of `Verif.CoreMngt` do, for the theorems about what is told.
-/

namespace Verif.CoreMngt

/-- Adding at a free place went well. -/
structure Added (s s' : St) (i : AddIn) (k : Nat) (y : Slot) : Prop where
  slots : s'.slots = s.slots.set k y
  name : y.name = i.name
  uuid : y.uuid = i.uuid
  valid : y.valid = true
  added : y.added = true
  opened : y.opened = true
  count : s'.count = s.count + 1
  stale : s.attached = true → s'.stale = false

/-- Adding at a free place failed. -/
structure NotAdded (s s' : St) (k : Nat) (y : Slot) : Prop where
  slots : s'.slots = s.slots.set k y
  free : Free y
  count : s'.count = s.count

/-- What adding leaves alone. -/
structure Rest (s s' : St) : Prop where
  inactive : s'.inactive = s.inactive
  incomplete : s'.incomplete = s.incomplete
  attached : s'.attached = s.attached
  pend : s'.pend = s.pend
  crash : s'.crash = s.crash

theorem addAt_spec {s : St} {i : AddIn} {k : Nat} {sl : Slot} (fx : Free sl) :
    Rest s (addAt s i k sl) ∧
    ((∃ y, (addAt s i k sl).told = s.told ++ [(.add, some k, true)] ∧ Added s (addAt s i k sl) i k y) ∨
     (∃ y, (addAt s i k sl).told = s.told ++ [(.add, some k, false)] ∧ NotAdded s (addAt s i k sl) k y)) := by
  have hsp := spec_insert i sl s.count s.leaked s.attached (Ctx.start s sl) (CI.start fx)
    ⟨by omega, by omega, rfl, rfl, by simp [Ctx.start], rfl, rfl⟩
  unfold CoreMngt.addAt
  generalize hr : insert s.attached i (Ctx.start s sl) = r at hsp
  obtain ⟨rb, rc⟩ := r
  obtain ⟨hci, hpost⟩ := hsp
  simp only at hci hpost ⊢
  have hu0 := handleError_spec0 hci
  by_cases e : rb = false
  · rw [if_pos e]
    exact ⟨⟨rfl, rfl, rfl, rfl, rfl⟩, Or.inr ⟨_, rfl, rfl, hu0.free, hu0.count⟩⟩
  · rw [if_neg e]
    have et : rb = true := by cases rb <;> simp_all
    have hpr := hpost et
    by_cases e2 : s.attached = true ∧ i.flush ≠ .ok
    · rw [if_pos e2]
      refine ⟨⟨?_, ?_, ?_, ?_, ?_⟩, Or.inr ⟨(handleError rc).slot, ?_, ?_, hu0.free, hu0.count⟩⟩
      · simp [put, e2.1, tell]
      · simp [put, e2.1, tell]
      · simp [put, e2.1, tell]
      · simp [put, e2.1, tell]
      · simp [put, e2.1, tell]
      · simp [put, e2.1, tell]
      · simp [put, e2.1, tell]
    · rw [if_neg e2]
      have hfl : s.attached = true → i.flush = .ok := by
        intro ha
        apply Classical.byContradiction
        intro hne
        exact e2 ⟨ha, hne⟩
      by_cases e3 : (frontInit rc.slot.front i.frontInit i.frontOpen).1 = true
      · rw [if_pos e3]
        have hco : rc.counters = true := hpr.co
        refine ⟨⟨?_, ?_, ?_, ?_, ?_⟩, Or.inl
          ⟨{ rc.slot with front := (frontInit rc.slot.front i.frontInit i.frontOpen).2 }, ?_,
            ?_, hpr.name (by omega), hpr.uuid (by omega), ?_, ?_, ?_, ?_, ?_⟩⟩
        · by_cases ha : s.attached = true <;> simp [put, tell, ha]
        · by_cases ha : s.attached = true <;> simp [put, tell, ha]
        · by_cases ha : s.attached = true <;> simp [put, tell, ha]
        · by_cases ha : s.attached = true <;> simp [put, tell, ha]
        · by_cases ha : s.attached = true <;> simp [put, tell, ha]
        · by_cases ha : s.attached = true <;> simp [put, tell, ha]
        · by_cases ha : s.attached = true <;> simp [put, tell, ha]
        · exact hci.valid.trans hco
        · exact hci.added.trans hco
        · exact hci.opened.trans hco
        · have h1 := hci.count
          rw [hco] at h1
          simpa [b2i, tell, put] using h1
        · intro ha
          simp [put, tell, ha, hfl ha]
      · rw [if_neg e3]
        have hu1 := handleError_spec hci (frontInit rc.slot.front i.frontInit i.frontOpen).2
          (rc.slot.front.lost i.frontInit)
        refine ⟨⟨?_, ?_, ?_, ?_, ?_⟩, Or.inr ⟨_, ?_, ?_, hu1.free, hu1.count⟩⟩
        · by_cases ha : s.attached = true <;> simp [put, tell, ha]
        · by_cases ha : s.attached = true <;> simp [put, tell, ha]
        · by_cases ha : s.attached = true <;> simp [put, tell, ha]
        · by_cases ha : s.attached = true <;> simp [put, tell, ha]
        · by_cases ha : s.attached = true <;> simp [put, tell, ha]
        · by_cases ha : s.attached = true <;> simp [put, tell, ha]
        · by_cases ha : s.attached = true <;> simp [put, tell, ha]

/-- The place that is found. -/
theorem findFree_least {l : List Slot} {k : Nat} (h : findFree l = some k) :
    ∀ (j : Nat) (x : Slot), l[j]? = some x → x.bit = false → j ≠ 0 → k ≠ 0 ∧ k ≤ j := by
  intro j x hj hb h0
  obtain ⟨j, rfl⟩ : ∃ i, j = i + 1 := ⟨j - 1, by omega⟩
  cases l with
  | nil => cases hj
  | cons a l =>
    simp only [List.getElem?_cons_succ] at hj
    unfold findFree at h
    simp only [List.tail_cons] at h
    cases hf : l.findIdx? (fun sl => !sl.bit) with
    | some m =>
      rw [hf] at h
      simp only [Option.some.injEq] at h
      rw [List.findIdx?_eq_some_iff_getElem] at hf
      obtain ⟨hm, _, hle⟩ := hf
      refine ⟨by omega, ?_⟩
      rcases Nat.lt_or_ge j m with h1 | h1
      · have hjl : j < l.length := by omega
        have := hle j h1
        rw [List.getElem?_eq_getElem hjl] at hj
        cases hj
        simp [hb] at this
      · omega
    | none =>
      rw [List.findIdx?_eq_none_iff] at hf
      have := hf x (List.mem_of_getElem? hj)
      simp [hb] at this

theorem findFree_some {l : List Slot} {j : Nat} {x : Slot} (hj : l[j]? = some x) (hb : x.bit = false) :
    findFree l ≠ none := by
  intro h
  unfold findFree at h
  cases hf : l.tail.findIdx? (fun sl => !sl.bit) with
  | some m => rw [hf] at h; cases h
  | none =>
    rw [hf] at h
    rw [List.findIdx?_eq_none_iff] at hf
    cases l with
    | nil => cases hj
    | cons a l =>
      simp only at h
      by_cases e : a.bit = true
      · cases j with
        | zero => simp at hj; subst hj; rw [hb] at e; cases e
        | succ j =>
          simp only [List.getElem?_cons_succ] at hj
          have := hf x (List.mem_of_getElem? hj)
          simp [hb] at this
      · rw [if_neg e] at h; cases h

theorem findFree_lt {l : List Slot} {k : Nat} (h : findFree l = some k) : ∃ x, l[k]? = some x := by
  unfold findFree at h
  cases hf : l.tail.findIdx? (fun sl => !sl.bit) with
  | some m =>
    rw [hf] at h
    simp only [Option.some.injEq] at h
    subst h
    rw [List.findIdx?_eq_some_iff_getElem] at hf
    obtain ⟨hm, _, _⟩ := hf
    cases l with
    | nil => simp at hm
    | cons a l => exact ⟨l[m], by simp at hm ⊢⟩
  | none =>
    rw [hf] at h
    cases l with
    | nil => cases h
    | cons a l =>
      simp only at h
      by_cases e : a.bit = true
      · rw [if_pos e] at h; cases h
      · rw [if_neg e] at h; cases h; exact ⟨a, rfl⟩

theorem cnt_ofMeta (m : Option (Nat × Nat)) :
    (Slot.ofMeta m).counters = false ∧ (Slot.ofMeta m).cutoff = false := by
  cases m <;> exact ⟨rfl, rfl⟩

theorem loadOne_cnt (oc : Bool) (i : LoadIn) (m : Option (Nat × Nat)) :
    (loadOne oc i (Slot.ofMeta m)).1.added = false → (loadOne oc i (Slot.ofMeta m)).1.counters = false ∧
    (loadOne oc i (Slot.ofMeta m)).1.cutoff = false := by
  have hc := cnt_ofMeta m
  unfold loadOne
  by_cases e1 : i.volInit ≠ .ok
  · rw [if_pos e1]; exact fun _ => hc
  rw [if_neg e1]
  simp only
  split
  · exact fun h => (by cases h)
  split
  · exact fun h => (by cases h)
  split
  · exact fun h => (by cases h)
  split
  · exact fun h => (by cases h)
  split
  · exact fun h => (by cases h)
  · exact fun h => (by cases h)

theorem loadAll_cnt {oc : Bool} {ins : Nat → LoadIn} : ∀ (img : List (Option (Nat × Nat))) (k : Nat),
    ∀ sl ∈ (loadAll oc ins k img).1, sl.added = false → sl.counters = false ∧ sl.cutoff = false
  | [], _ => by intro sl h; cases h
  | m :: ms, k => by
    intro sl h
    unfold loadAll at h
    have hm := cnt_ofMeta m
    by_cases e : m = none
    · rw [if_pos e] at h
      rcases List.mem_cons.mp h with h | h
      · rw [h]; exact fun _ => hm
      · exact loadAll_cnt ms (k + 1) sl h
    · rw [if_neg e] at h
      simp only at h
      by_cases e2 : (loadOne oc (ins k) (Slot.ofMeta m)).2 = .err
      · rw [if_pos e2] at h
        rcases List.mem_cons.mp h with h | h
        · rw [h]; exact loadOne_cnt oc (ins k) m
        · obtain ⟨a, _, rfl⟩ := List.mem_map.mp h
          exact fun _ => cnt_ofMeta a
      · rw [if_neg e2] at h
        rcases List.mem_cons.mp h with h | h
        · rw [h]; exact loadOne_cnt oc (ins k) m
        · exact loadAll_cnt ms (k + 1) sl h

/-- What a list ends with. -/
theorem last_eq {α : Type} {l : List α} {a b : α} (h : l ++ [a] = l ++ [b]) : a = b := by
  have := List.append_cancel_left h
  exact (List.cons.inj this).1

theorem last_ne {α : Type} {l : List α} {b : α} (h : l = l ++ [b]) : False := by
  have := congrArg List.length h
  simp at this

end Verif.CoreMngt
