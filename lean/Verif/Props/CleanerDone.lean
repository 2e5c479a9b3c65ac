import Verif.Model.Cleaner

/-! Property C46: a cleaning order is completed exactly once, after all its requests finished. -/

namespace Verif.Cleaner.Done

/-- Number of requests below `k` that are counted and not finished. -/
def openBelow (rq : Nat → Rq) (k : Nat) : Nat :=
  ((List.range k).filter (fun j => decide (rq j ≠ .finished))).length

/-- Requests fired so far, not counting one whose increment is still to come. -/
def State.fired (s : State) (last : Nat) : Nat :=
  match s.main with
  | .fire k => k
  | .inc k _ => k
  | .ended => last

/-- Invariant; `last` is the number of requests fired in total once the thread ended. -/
structure Inv (s : State) : Prop where
  run : ∃ last, (∀ j, last < j → s.rq j = .idle) ∧ (∀ j < last, s.rq j ≠ .idle) ∧
    (match s.main with
     | .fire k => k = last ∧ s.rq k = .idle
     | .inc k a => k = last ∧ s.rq k = (if a then .idle else .waiting)
     | .ended => s.rq last = .idle) ∧
    s.remaining = openBelow s.rq last + (if s.main = .ended then 0 else 1) ∧
    s.completions = (if s.main = .ended ∧ openBelow s.rq last = 0 then 1 else 0)

theorem openBelow_set (rq : Nat → Rq) (k n : Nat) (r : Rq) (hk : k < n) (h1 : rq k ≠ .finished) :
    openBelow (fun j => if j = k then r else rq j) n + (if r = .finished then 1 else 0) =
      openBelow rq n := by
  induction n with
  | zero => omega
  | succ n ih =>
    unfold openBelow at *
    simp only [List.range_succ, List.filter_append, List.length_append]
    by_cases q : k = n
    · subst q
      have : (List.range k).filter (fun j => decide ((if j = k then r else rq j) ≠ .finished)) =
          (List.range k).filter (fun j => decide (rq j ≠ .finished)) := by
        apply List.filter_congr
        intro j hj
        have : j ≠ k := by have := List.mem_range.1 hj; omega
        simp [this]
      rw [this]
      by_cases q2 : r = .finished <;> simp [h1, q2]
    · have := ih (by omega)
      have e : n ≠ k := fun e => q e.symm
      simp only [e, List.filter_cons, List.filter_nil, if_false] at *
      omega

theorem openBelow_succ (rq : Nat → Rq) (n : Nat) :
    openBelow rq (n + 1) = openBelow rq n + (if rq n = .finished then 0 else 1) := by
  unfold openBelow
  rw [List.range_succ, List.filter_append, List.length_append]
  by_cases q : rq n = .finished <;> simp [q]

theorem openBelow_congr (a b : Nat → Rq) (n : Nat) (h : ∀ j < n, a j = b j) :
    openBelow a n = openBelow b n := by
  unfold openBelow
  congr 1
  apply List.filter_congr
  intro j hj
  rw [h j (List.mem_range.1 hj)]

theorem openBelow_pos (rq : Nat → Rq) (n k : Nat) (hk : k < n) (h : rq k ≠ .finished) :
    0 < openBelow rq n := by
  unfold openBelow
  exact List.length_pos_of_mem (List.mem_filter.2 ⟨List.mem_range.2 hk, by simpa using h⟩)

theorem inv_step (s t : State) (h : Inv s) (st : Step false s t) : Inv t := by
  obtain ⟨last, a1, a2, a3, a4, a5⟩ := h.run
  cases st with
  | lockAcq k e =>
    simp only [e] at a3 a4 a5
    exact ⟨last, a1, a2, by simpa using a3, by simpa using a4, by simpa using a5⟩
  | lockWait k e =>
    simp only [e] at a3 a4 a5
    obtain ⟨rfl, a3⟩ := a3
    refine ⟨k, ?_, ?_, ?_, ?_, ?_⟩
    · intro j hj; simp [State.setRq, a1 j hj]; omega
    · intro j hj; have := a2 j hj; simp only [State.setRq]; split
      · simp
      · exact this
    · simp [State.setRq]
    · rw [openBelow_congr _ s.rq]
      · simpa using a4
      · intro j hj; simp [State.setRq]; omega
    · simpa using a5
  | inc k a e =>
    simp only [e] at a3 a4 a5
    obtain ⟨rfl, a3⟩ := a3
    have hc : ∀ j < k, (if a then s.setRq k .running else s.rq) j = s.rq j := by
      intro j hj; cases a <;> simp [State.setRq]; omega
    have hk : (if a then s.setRq k .running else s.rq) k ≠ .finished ∧
        (if a then s.setRq k .running else s.rq) k ≠ .idle := by
      cases a <;> simp [State.setRq]; simp [a3]
    refine ⟨k + 1, ?_, ?_, ?_, ?_, ?_⟩
    · intro j hj; cases a <;> simp [State.setRq, a1 j (by omega)]; omega
    · intro j hj
      by_cases q : j = k
      · subst q; exact hk.2
      · simp only [hc j (by omega)]; exact a2 j (by omega)
    · refine ⟨rfl, ?_⟩
      cases a <;> simp [State.setRq, a1 (k + 1) (by omega)]
    · simp only [openBelow_succ, hk.1, openBelow_congr _ _ k hc]
      simp at a4 ⊢
      omega
    · simpa using a5
  | resume k e1 e2 =>
    have hne : s.main ≠ .inc k false := by simpa using e2
    have hk : k < last := by
      rcases Nat.lt_or_ge k last with q | q
      · exact q
      · rcases Nat.lt_or_eq_of_le q with q | q
        · rw [a1 k q] at e1; cases e1
        · subst q
          cases hm : s.main with
          | fire j => simp [hm] at a3; rw [← a3.1, a3.2] at e1; cases e1
          | ended => simp [hm] at a3; rw [a3] at e1; cases e1
          | inc j a =>
            simp [hm] at a3
            obtain ⟨rfl, a3⟩ := a3
            cases a
            · exact absurd hm hne
            · simp at a3; rw [a3] at e1; cases e1
    have ho : openBelow (s.setRq k .running) last = openBelow s.rq last := by
      have := openBelow_set s.rq k last .running hk (by simp [e1])
      simp only [reduceCtorEq, if_false, Nat.add_zero] at this
      exact this
    refine ⟨last, ?_, ?_, ?_, ?_, ?_⟩
    · intro j hj; simp [State.setRq, a1 j hj]; omega
    · intro j hj; simp only [State.setRq]; split
      · simp
      · exact a2 j hj
    · cases hm : s.main with
      | fire j =>
        simp only [hm] at a3 ⊢
        have : j ≠ k := by omega
        simpa [State.setRq, this] using a3
      | ended =>
        simp only [hm] at a3 ⊢
        have : last ≠ k := by omega
        simpa [State.setRq, this] using a3
      | inc j a =>
        simp only [hm] at a3 ⊢
        have : j ≠ k := by omega
        simpa [State.setRq, this] using a3
    · simp only [ho]; exact a4
    · simp only [ho]; exact a5
  | finish k e1 =>
    have hk : k < last := by
      rcases Nat.lt_or_ge k last with q | q
      · exact q
      · rcases Nat.lt_or_eq_of_le q with q | q
        · rw [a1 k q] at e1; cases e1
        · subst q
          cases hm : s.main with
          | fire j => simp [hm] at a3; rw [← a3.1, a3.2] at e1; cases e1
          | ended => simp [hm] at a3; rw [a3] at e1; cases e1
          | inc j a =>
            simp [hm] at a3
            obtain ⟨rfl, a3⟩ := a3
            rw [a3] at e1
            split at e1 <;> cases e1
    have ho : openBelow (s.setRq k .finished) last + 1 = openBelow s.rq last := by
      have := openBelow_set s.rq k last .finished hk (by simp [e1])
      simp only [if_true] at this
      exact this
    refine ⟨last, ?_, ?_, ?_, ?_, ?_⟩
    · intro j hj; simp [State.setRq, a1 j hj]; omega
    · intro j hj; simp only [State.setRq]; split
      · simp
      · exact a2 j hj
    · simp only [State.dec]
      cases hm : s.main with
      | fire j =>
        simp only [hm] at a3 ⊢
        have : j ≠ k := by omega
        simpa [State.setRq, this] using a3
      | ended =>
        simp only [hm] at a3 ⊢
        have : last ≠ k := by omega
        simpa [State.setRq, this] using a3
      | inc j a =>
        simp only [hm] at a3 ⊢
        have : j ≠ k := by omega
        simpa [State.setRq, this] using a3
    · simp only [State.dec]; split at a4 <;> simp_all <;> omega
    · simp only [State.dec]
      by_cases q : s.main = .ended
      · simp only [q, true_and, if_true] at a4 a5 ⊢
        have : ¬ openBelow s.rq last = 0 := by omega
        rw [if_neg this] at a5
        by_cases q2 : openBelow (s.setRq k .finished) last = 0
        · rw [if_pos (by omega), if_pos q2]; omega
        · rw [if_neg (by omega), if_neg q2]; omega
      · simp only [q, false_and, if_false] at a4 a5 ⊢
        rw [if_neg (by omega)]; omega
  | stop k e =>
    simp only [e] at a3 a4 a5
    obtain ⟨rfl, a3⟩ := a3
    refine ⟨k, a1, a2, by simpa [State.dec] using a3, ?_, ?_⟩
    · simp [State.dec] at a4 ⊢; omega
    · simp [State.dec] at a4 a5 ⊢
      by_cases q : openBelow s.rq k = 0
      · rw [if_pos (by omega), if_pos q]; omega
      · rw [if_neg (by omega), if_neg q]; omega

theorem inv_reach (s : State) (h : Reach (· = init) (Step false) s) : Inv s :=
  Reach.inv (P := Inv) (fun s hs => by
    subst hs
    exact ⟨0, by simp [init], by simp, by simp [init], by simp [init, openBelow], by simp [init]⟩)
    (fun s t hs st => inv_step s t hs st) s h

/-- C46 (any number of requests, any interleaving): the caller is called at most once, and exactly
once when the firing thread is through and all requests finished; never before. Partial: requests
that had to wait for their locks start only after the counter was incremented for them;
`completes_twice` shows what happens otherwise. -/
theorem completes_once_partial (s : State) (h : Reach (· = init) (Step false) s) :
    s.completions = 0 ∨
    (s.completions = 1 ∧ s.main = .ended ∧ ∀ k, s.rq k = .idle ∨ s.rq k = .finished) := by
  obtain ⟨last, a1, a2, a3, a4, a5⟩ := (inv_reach s h).run
  by_cases q : s.main = .ended ∧ openBelow s.rq last = 0
  · right
    rw [if_pos q] at a5
    refine ⟨a5, q.1, fun k => ?_⟩
    rw [q.1] at a3
    rcases Nat.lt_trichotomy k last with c | c | c
    · by_cases f : s.rq k = .finished
      · exact .inr f
      · have := openBelow_pos s.rq last k c f; omega
    · subst c; exact .inl a3
    · exact .inl (a1 k c)
  · left; rw [if_neg q] at a5; exact a5

/-- C46, no completion is missing: with nothing left to do the caller has been called. -/
theorem completes_at_end (s : State) (h : Reach (· = init) (Step false) s) (hm : s.main = .ended)
    (hk : ∀ k, s.rq k = .idle ∨ s.rq k = .finished) : s.completions = 1 := by
  obtain ⟨last, a1, a2, a3, a4, a5⟩ := (inv_reach s h).run
  have : openBelow s.rq last = 0 := by
    unfold openBelow
    rw [List.length_eq_zero_iff, List.filter_eq_nil_iff]
    intro j hj
    have := a2 j (List.mem_range.1 hj)
    rcases hk j with e | e
    · exact absurd e this
    · simp [e]
  rw [a5, if_pos ⟨hm, this⟩]

/-- A run to the end with one request: the hypotheses of `completes_at_end` are met. -/
example : ∃ s, Reach (· = init) (Step false) s ∧ s.main = .ended ∧
    (∀ k, s.rq k = .idle ∨ s.rq k = .finished) ∧ s.rq 0 = .finished ∧ s.completions = 1 := by
  have h0 : Reach (· = init) (Step false) init := .init rfl
  have h1 := h0.step (.lockAcq _ 0 rfl)
  have h2 := h1.step (.inc _ 0 true rfl)
  have h3 := h2.step (.finish _ 0 (by simp [init, State.setRq]))
  have h4 := h3.step (.stop _ 1 rfl)
  have hk : ∀ k, ((init.setRq 0 .running) k = .idle ∨ k = 0) := by
    intro k; by_cases q : k = 0 <;> simp [q, State.setRq, init]
  refine ⟨_, h4, rfl, fun k => ?_, by simp [State.dec, State.setRq], ?_⟩
  · by_cases q : k = 0 <;> simp [q, State.setRq, init, State.dec]
  · exact completes_at_end _ h4 rfl (fun k => by
      by_cases q : k = 0 <;> simp [q, State.setRq, init, State.dec])

/-- The full property fails: a request whose lock is granted right after the call returned runs and
finishes on another thread before the counter is incremented for it; the order is completed, and
then, when the firing thread is through, completed again. -/
theorem completes_twice : ∃ s, Reach (· = init) (Step true) s ∧ s.completions = 2 := by
  have h0 : Reach (· = init) (Step true) init := .init rfl
  have h1 := h0.step (.lockWait _ 0 rfl)
  have h2 := h1.step (.resume _ 0 (by simp [init, State.setRq]) (.inl rfl))
  have h3 := h2.step (.finish _ 0 (by simp [init, State.setRq]))
  have h4 := h3.step (.inc _ 0 false rfl)
  have h5 := h4.step (.stop _ 1 rfl)
  exact ⟨_, h5, by simp [State.dec, init]⟩

/-- The same race lets the caller be called while other requests of the order are running. -/
theorem completes_early : ∃ s, Reach (· = init) (Step true) s ∧ s.completions = 1 ∧
    s.rq 1 = .running ∧ s.main ≠ .ended := by
  have h0 : Reach (· = init) (Step true) init := .init rfl
  have h1 := h0.step (.lockWait _ 0 rfl)
  have h2 := h1.step (.resume _ 0 (by simp [init, State.setRq]) (.inl rfl))
  have h3 := h2.step (.finish _ 0 (by simp [init, State.setRq]))
  have h4 := h3.step (.inc _ 0 false rfl)
  have h5 := h4.step (.lockAcq _ 1 rfl)
  have h6 := h5.step (.inc _ 1 true rfl)
  exact ⟨_, h6, by simp [State.dec, init], by simp [State.setRq], by simp⟩

end Verif.Cleaner.Done
