import Verif.Model.Queue

/-! C25. Each pushed request is run exactly once; FIFO per priority; high before low. -/

namespace Verif.Queue

/-- The invariant: per priority, pushes = pops followed by what waits, in order. -/
structure Inv (s : State) : Prop where
  hi : s.pushed.filter (·.high) = s.popped.filter (·.high) ++ s.high
  lo : s.pushed.filter (!·.high) = s.popped.filter (!·.high) ++ s.low
  no : s.ioNo = s.high.length + s.low.length
  nodup : (s.pushed.map (·.id)).Nodup

theorem Inv.allHigh {s : State} (h : Inv s) : ∀ x ∈ s.high, x.high = true := by
  intro x hx
  have : x ∈ s.pushed.filter (·.high) := by rw [h.hi]; exact List.mem_append_right _ hx
  exact (List.mem_filter.1 this).2

theorem Inv.allLow {s : State} (h : Inv s) : ∀ x ∈ s.low, x.high = false := by
  intro x hx
  have : x ∈ s.pushed.filter (!·.high) := by rw [h.lo]; exact List.mem_append_right _ hx
  simpa using (List.mem_filter.1 this).2

theorem inv_step (s t : State) (h : Inv s) (hst : Step s t) : Inv t := by
  cases hst with
  | push x hx =>
    obtain ⟨id, hb⟩ := x
    have hn : ((s.pushed ++ [Item.mk id hb]).map Item.id).Nodup := by
      rw [List.map_append, List.nodup_append]
      refine ⟨h.nodup, by simp, ?_⟩
      intro a ha b hb
      simp at hb; subst hb
      obtain ⟨y, hy, rfl⟩ := List.mem_map.1 ha
      exact hx y hy
    have h1 := h.hi; have h2 := h.lo; have h3 := h.no
    cases hb <;> refine ⟨?_, ?_, ?_, hn⟩ <;>
      simp [push, h1, h2, h3] <;> omega
  | pop =>
    have h1 := h.hi; have h2 := h.lo; have h3 := h.no
    have ha := h.allHigh; have hb := h.allLow
    obtain ⟨hi, lo, no, pu, po⟩ := s
    simp only at h1 h2 h3 ha hb
    cases hi with
    | cons x t =>
      have hx := ha x (by simp)
      refine ⟨?_, ?_, ?_, h.nodup⟩ <;> simp [pop, hx, h1, h2, h3]
      omega
    | nil =>
      cases lo with
      | nil => exact h
      | cons x t =>
        have hx := hb x (by simp)
        refine ⟨?_, ?_, ?_, h.nodup⟩ <;> simp [pop, hx, h1, h2, h3]

theorem inv_reach (s : State) (h : Reach (· = init) Step s) : Inv s :=
  Reach.inv (P := Inv) (init := (· = init)) (by rintro _ rfl; exact ⟨rfl, rfl, rfl, by simp [init]⟩) inv_step s h

/-- Splitting a list by a Boolean does not lose or duplicate elements. -/
theorem count_split (l : List Item) (x : Item) :
    l.count x = (l.filter (·.high)).count x + (l.filter (!·.high)).count x := by
  induction l with
  | nil => rfl
  | cons y l ih =>
    cases hy : y.high <;> simp [hy, List.count_cons, ih] <;> omega

/-- C25 (exactly once): every pushed item is either waiting, once, or has been run, once; and
nothing runs that was not pushed. -/
theorem run_exactly_once (s : State) (h : Reach (· = init) Step s) (x : Item) :
    s.pushed.count x = s.popped.count x + (s.high.count x + s.low.count x) ∧
    s.pushed.count x ≤ 1 := by
  have hi := inv_reach s h
  refine ⟨?_, ?_⟩
  · rw [count_split s.pushed, count_split s.popped, hi.hi, hi.lo]
    simp only [List.count_append]; omega
  · have : s.pushed.Nodup := by
      have := hi.nodup
      rw [List.nodup_iff_pairwise_ne, List.pairwise_map] at this
      rw [List.nodup_iff_pairwise_ne]
      exact this.imp fun h e => h (by rw [e])
    exact List.nodup_iff_count.1 this x

/-- C25 (order): among requests of one priority, those run are exactly the first ones pushed, in
push order. -/
theorem fifo_per_priority (s : State) (h : Reach (· = init) Step s) (p : Bool) :
    s.popped.filter (·.high == p) <+: s.pushed.filter (·.high == p) := by
  have hi := inv_reach s h
  cases p
  · have e : (fun x : Item => x.high == false) = (fun x => !x.high) := by
      funext x; cases x.high <;> rfl
    rw [e, hi.lo]; exact List.prefix_append _ _
  · have e : (fun x : Item => x.high == true) = (fun x => x.high) := by
      funext x; cases x.high <;> rfl
    rw [e, hi.hi]; exact List.prefix_append _ _

/-- C25 (priority): when a low priority request is taken, no high priority request was waiting,
and in either case the oldest waiting request of its priority is taken. -/
theorem high_first (s : State) (h : Reach (· = init) Step s) (x : Item)
    (hp : (pop s).2 = some x) :
    (x.high = false → ∀ y ∈ s.pushed, y.high = true → y ∈ s.popped) ∧
    (∃ r, s.pushed.filter (·.high == x.high) = s.popped.filter (·.high == x.high) ++ x :: r) := by
  have hi := inv_reach s h
  have h1 := hi.hi; have h2 := hi.lo; have ha := hi.allHigh; have hb := hi.allLow
  have e0 : (fun x : Item => x.high == false) = (fun x => !x.high) := by
    funext x; cases x.high <;> rfl
  have e1 : (fun x : Item => x.high == true) = (fun x => x.high) := by
    funext x; cases x.high <;> rfl
  obtain ⟨hl, lo, no, pu, po⟩ := s
  simp only at h1 h2 ha hb ⊢
  cases hl with
  | cons y t =>
    simp only [pop, Option.some.injEq] at hp
    subst hp
    have hx := ha y (by simp)
    refine ⟨by simp [hx], t, ?_⟩
    rw [hx, e1]; exact h1
  | nil =>
    cases lo with
    | nil => simp [pop] at hp
    | cons y t =>
      simp only [pop, Option.some.injEq] at hp
      subst hp
      have hx := hb y (by simp)
      refine ⟨?_, t, ?_⟩
      · intro _ z hz hzh
        have : z ∈ pu.filter (·.high) := List.mem_filter.2 ⟨hz, hzh⟩
        rw [h1] at this
        simp at this; exact this.1
      · rw [hx, e0]; exact h2

/-- C25 (nothing left behind): when a queue runner stops, every request pushed so far has been
taken. -/
theorem run_stops_empty (s : State) (h : Reach (· = init) Step s) :
    runStops s ↔ ∀ x ∈ s.pushed, x ∈ s.popped := by
  have hi := inv_reach s h
  have hno := hi.no
  unfold runStops
  constructor
  · intro hs x hx
    have e1 : s.high = [] := List.length_eq_zero_iff.1 (by omega)
    have e2 : s.low = [] := List.length_eq_zero_iff.1 (by omega)
    have := (run_exactly_once s h x).1
    rw [e1, e2] at this
    have hc : 0 < s.pushed.count x := List.count_pos_iff.2 hx
    exact List.count_pos_iff.1 (by simp at this; omega)
  · intro hall hgt
    have : ∃ x, 0 < s.high.count x + s.low.count x := by
      cases hh : s.high with
      | cons x _ => exact ⟨x, by simp; omega⟩
      | nil =>
        cases hl : s.low with
        | cons x _ => exact ⟨x, by simp⟩
        | nil => simp [hh, hl] at hno; omega
    obtain ⟨x, hx⟩ := this
    obtain ⟨h1, h2⟩ := run_exactly_once s h x
    have hm : x ∈ s.pushed := List.count_pos_iff.1 (by omega)
    have := List.count_pos_iff.2 (hall x hm)
    omega

/-! Non-vacuity: low, then high pushed; high is taken first. -/
example : ∃ s, Reach (· = init) Step s ∧ s.popped = [⟨2, true⟩] ∧ s.low = [⟨1, false⟩] := by
  refine ⟨(pop (push (push init ⟨1, false⟩) ⟨2, true⟩)).1, ?_, rfl, rfl⟩
  exact .step (.step (.step (.init rfl) (.push _ ⟨1, false⟩ (by simp [init])))
    (.push _ ⟨2, true⟩ (by simp [init, push]))) (.pop _)

end Verif.Queue
