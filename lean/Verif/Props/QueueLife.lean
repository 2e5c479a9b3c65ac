import Verif.Lemma.QueueLife

/-! C61: a queue lives from its creation to the put of its last reference, is stopped exactly once, then, and keeps
the cache allocated meanwhile; the list of a cache has exactly the live I/O queues; failed creation changes
nothing; a stopped cache whose queues are put has given everything back.

Partial: creation that fails for lack of the sequential cutoff structure loses an initialised spinlock; the pointer
to the management queue outlives it; an I/O queue whose last reference is put after the cache was stopped is
unlinked under a destroyed lock. Each has a witness below. -/

namespace Verif.QueueLife

/-! ## What callers see -/

/-- A live queue seen from outside: its serial number, its references and whether it is the management queue. -/
def seen (s : St) (a : Nat) : Option (Nat × Nat × Bool) := (at? s a).map fun q => (q.ser, q.refs, q.mngt)

/-- The cache is allocated as long as one of its queues lives, whatever callers do. -/
theorem cache_kept {s : St} (h : Reach Init Step s) {a : Nat} (ha : (seen s a).isSome = true) : s.live = true := by
  have i := InvG.reach h
  cases hq : at? s a with
  | none => simp [seen, hq] at ha
  | some q =>
    have := List.length_pos_of_mem (at?_some hq).1
    have c := i.cnt
    rw [i.liv]
    have : (s.crefs == 0) = false := by simp; omega
    simp [this]

/-- The cache is freed exactly when it was stopped, no queue lives and nobody holds it. -/
theorem cache_freed_iff {s : St} (h : Reach Init Step s) :
    s.live = false ↔ s.frozen = true ∧ (∀ a, seen s a = none) ∧ s.cuser = 0 := by
  have i := InvG.reach h
  have c := i.cnt
  have hn : (∀ a, seen s a = none) ↔ s.queues.length = 0 := by
    constructor
    · intro hh
      cases hl : s.queues with
      | nil => rfl
      | cons q l =>
        have := hh q.addr
        rw [seen, at?_mem i.nd (by rw [hl]; exact List.mem_cons_self)] at this
        cases this
    · intro hh a
      have : s.queues = [] := List.length_eq_zero_iff.1 hh
      simp [seen, at?, this]
  rw [hn, i.liv]
  cases hf : s.frozen with
  | false => simp
  | true =>
    rw [hf, if_pos rfl] at c
    constructor
    · intro e
      have e : s.crefs = 0 := by simpa using e
      exact ⟨rfl, by omega, by omega⟩
    · rintro ⟨_, h1, h2⟩
      have e : s.crefs = 0 := by omega
      simp [e]

/-- Of the queues created, each was stopped once or lives, not both. -/
theorem stop_once {s : St} (h : Reach Init Step s) :
    s.stops.Nodup ∧ (∀ k ∈ s.stops, k < s.next) ∧
      ∀ k, k < s.next → (k ∉ s.stops ↔ ∃ a r m, seen s a = some (k, r, m)) := by
  have i := InvG.reach h
  have nd := List.nodup_append.1 i.ser
  refine ⟨nd.2.1, fun k hk => (i.rng k).1 (List.mem_append_right _ hk), fun k hk => ⟨fun hn => ?_, ?_⟩⟩
  · have := (i.rng k).2 hk
    rcases List.mem_append.1 this with hm | hm
    · obtain ⟨q, hq, rfl⟩ := List.mem_map.1 hm
      exact ⟨q.addr, q.refs, q.mngt, by rw [seen, at?_mem i.nd hq]; rfl⟩
    · exact absurd hm hn
  · rintro ⟨a, r, m, e⟩ hs
    cases hq : at? s a with
    | none => simp [seen, hq] at e
    | some q =>
      simp [seen, hq] at e
      exact nd.2.2 _ (List.mem_map_of_mem (at?_some hq).1) _ hs e.1

/-- References to the cache: refused once it was stopped, counted before; the put of one does not touch queues. -/
theorem cache_refs_spec (s : St) :
    (s.frozen = true → step s .cget = s) ∧
    (s.frozen = false → step s .cget = { s with crefs := s.crefs + 1, cuser := s.cuser + 1 }) ∧
    (∀ a, seen (step s .cput) a = seen s a) ∧ (step s .cput).list = s.list ∧
      (step s .cput).crefs = s.crefs - 1 := by
  refine ⟨fun h => ?_, fun h => ?_, fun a => ?_, ?_, ?_⟩
  · simp [step, h]
  · simp [step, h]
  · simp [step, seen, at?, cput_queues]
  · simp [step, cput_list]
  · simp [step, cput_crefs]

/-- Getting a queue adds a reference and does nothing else. -/
theorem get_spec (s : St) (a : Nat) :
    seen (get s a) a = (seen s a).map (fun x => (x.1, x.2.1 + 1, x.2.2)) ∧
      (∀ b, b ≠ a → seen (get s a) b = seen s b) ∧ { get s a with queues := s.queues } = s := by
  have key : ∀ b (l : List Q), (l.map fun q => if q.addr = a then { q with refs := q.refs + 1 } else q).find?
      (fun q => q.addr == b) = (l.find? (fun q => q.addr == b)).map
        (fun q => if q.addr = a then { q with refs := q.refs + 1 } else q) := by
    intro b l
    induction l with
    | nil => rfl
    | cons x l ih =>
      have hx : (if x.addr = a then { x with refs := x.refs + 1 } else x).addr = x.addr := by split <;> rfl
      rw [List.map_cons, List.find?_cons, List.find?_cons, hx]
      cases x.addr == b with
      | true => rfl
      | false => exact ih
  refine ⟨?_, fun b hb => ?_, rfl⟩
  · show ((List.find? _ _).map _) = _
    rw [seen, at?]
    unfold get
    simp only []
    rw [key]
    cases h : List.find? (fun q => q.addr == a) s.queues with
    | none => rfl
    | some q =>
      have : q.addr = a := by simpa using List.find?_some h
      simp [this]
  · show ((List.find? _ _).map _) = _
    rw [seen, at?]
    unfold get
    simp only []
    rw [key]
    cases h : List.find? (fun q => q.addr == b) s.queues with
    | none => rfl
    | some q =>
      have : q.addr = b := by simpa using List.find?_some h
      have hn : ¬ q.addr = a := by rw [this]; exact hb
      simp [hn]

/-- Putting a reference that is not the last takes it and does nothing else. -/
theorem put_more {s : St} (h : Reach Init Step s) {a k r : Nat} {m : Bool} (e : seen s a = some (k, r, m))
    (hr : 1 < r) :
    seen (put s a) a = some (k, r - 1, m) ∧ (∀ b, b ≠ a → seen (put s a) b = seen s b) ∧
      (put s a).stops = s.stops ∧ (put s a).list = s.list ∧ (put s a).live = s.live ∧ (put s a).spins = s.spins ∧
      (put s a).cuts = s.cuts ∧ (put s a).crefs = s.crefs := by
  have i := InvG.reach h
  have j := i.put a
  cases hq : at? s a with
  | none => simp [seen, hq] at e
  | some q =>
    simp [seen, hq] at e
    obtain ⟨rfl, rfl, rfl⟩ := e
    have e : put s a =
        { s with queues := s.queues.map fun q => if q.addr = a then { q with refs := q.refs - 1 } else q } := by
      unfold put
      rw [hq]
      simp only []
      rw [if_pos (by omega)]
    have ⟨hm, ha⟩ := at?_some hq
    refine ⟨?_, fun b hb => ?_, by rw [e], by rw [e], by rw [e], by rw [e], by rw [e], by rw [e]⟩
    · have : at? (put s a) a = some { q with refs := q.refs - 1 } := by
        apply (at?_iff j.nd).2
        refine ⟨?_, ha⟩
        rw [e]
        exact List.mem_map.2 ⟨q, hm, by rw [if_pos ha]⟩
      rw [seen, this]; rfl
    · cases hb' : at? s b with
      | some p =>
        have ⟨hp, pb⟩ := at?_some hb'
        have : at? (put s a) b = some p := by
          apply (at?_iff j.nd).2
          refine ⟨?_, pb⟩
          rw [e]
          exact List.mem_map.2 ⟨p, hp, by rw [if_neg (by rw [pb]; exact hb)]⟩
        rw [seen, seen, this, hb']
      | none =>
        cases hc : at? (put s a) b with
        | none => rw [seen, seen, hc, hb']
        | some p =>
          have ⟨hp, pb⟩ := at?_some hc
          rw [e] at hp
          obtain ⟨p', hp', rfl⟩ := List.mem_map.1 hp
          have : p'.addr = b := by rw [← pb]; split <;> rfl
          exact absurd (this ▸ List.mem_map_of_mem hp') (at?_none hb')

/-- Putting the last reference stops the queue and ends it; other queues stay as they are. -/
theorem put_last {s : St} (h : Reach Init Step s) {a k : Nat} {m : Bool} (e : seen s a = some (k, 1, m)) :
    seen (put s a) a = none ∧ (∀ b, b ≠ a → seen (put s a) b = seen s b) ∧ (put s a).stops = k :: s.stops ∧
      (put s a).spins + 1 = s.spins ∧ (put s a).crefs + 1 = s.crefs := by
  have i := InvG.reach h
  have j := i.put a
  cases hq : at? s a with
  | none => simp [seen, hq] at e
  | some q =>
    simp [seen, hq] at e
    obtain ⟨rfl, e1, rfl⟩ := e
    have ⟨hm, ha⟩ := at?_some hq
    have e : put s a = destroy s q := by
      unfold put
      rw [hq]
      simp only []
      rw [if_neg (by omega)]
    have hl := (perm_out i.nd hm).length_eq
    simp only [List.length_cons] at hl
    refine ⟨?_, fun b hb => ?_, by rw [e, destroy_stops], ?_, ?_⟩
    · cases hc : at? (put s a) a with
      | none => rw [seen, hc]; rfl
      | some p =>
        have ⟨hp, pa⟩ := at?_some hc
        rw [e, destroy_queues] at hp
        have := (List.mem_filter.1 hp).2
        rw [pa, ha] at this
        simp at this
    · cases hb' : at? s b with
      | some p =>
        have ⟨hp, pb⟩ := at?_some hb'
        have : at? (put s a) b = some p := by
          apply (at?_iff j.nd).2
          refine ⟨?_, pb⟩
          rw [e, destroy_queues]
          refine List.mem_filter.2 ⟨hp, ?_⟩
          rw [pb, ha]; simpa using hb
        rw [seen, seen, this, hb']
      | none =>
        cases hc : at? (put s a) b with
        | none => rw [seen, seen, hc, hb']
        | some p =>
          have ⟨hp, pb⟩ := at?_some hc
          rw [e, destroy_queues] at hp
          exact absurd (pb ▸ List.mem_map_of_mem (List.mem_filter.1 hp).1) (at?_none hb')
    · have h1 := i.spn
      have : (put s a).spins = s.spins - 1 := by
        rw [e]; unfold destroy; simp only [cput_spins]; split <;> rfl
      omega
    · have h1 := i.cnt
      have : (put s a).crefs = s.crefs - 1 := by
        rw [e]; unfold destroy; simp only [cput_crefs]; split <;> rfl
      omega

/-- Creating an I/O queue succeeds exactly on a cache not stopped when all it needs can be had; then the queue
lives with one reference, linked first, and the cache has one reference more. -/
theorem create_spec (s : St) (a : Nat) (al sp cu : Bool) :
    ((create s a al sp cu).2 = true ↔ s.frozen = false ∧ al = true ∧ sp = true ∧ cu = true) ∧
    ((create s a al sp cu).2 = true → seen (create s a al sp cu).1 a = some (s.next, 1, false) ∧
      (∀ b, b ≠ a → seen (create s a al sp cu).1 b = seen s b) ∧ (create s a al sp cu).1.list = a :: s.list ∧
      (create s a al sp cu).1.next = s.next + 1 ∧ (create s a al sp cu).1.crefs = s.crefs + 1 ∧
      (create s a al sp cu).1.stops = s.stops ∧ (create s a al sp cu).1.mngt = s.mngt) := by
  rcases create_cases s a al sp cu with ⟨hf, e⟩ | ⟨hf, hb, e⟩ | ⟨hf, hb, hc, e⟩ | ⟨hf, hb, e⟩ <;> rw [e]
  · simp [hf]
  · simp at hb
    refine ⟨⟨fun h => (by cases h), ?_⟩, fun h => (by cases h)⟩
    rintro ⟨_, h1, h2, _⟩
    rw [hb h1] at h2; cases h2
  · simp [hc]
  · simp at hb
    refine ⟨⟨fun _ => ⟨hf, hb.1.1, hb.1.2, hb.2⟩, fun _ => rfl⟩, fun _ => ⟨?_, ?_, rfl, rfl, rfl, rfl, rfl⟩⟩
    · simp [seen, at?]
    · intro b hb
      have : ¬ a = b := fun e => hb e.symm
      simp [seen, at?, this]

/-- Creating an I/O queue that fails changes nothing, except when the sequential cutoff structure is what lacks:
then an initialised spinlock is lost. -/
theorem create_fails_partial {s : St} {a : Nat} {al sp cu : Bool} (h : (create s a al sp cu).2 = false) :
    (create s a al sp cu).1 = s ∨
      (cu = false ∧ (create s a al sp cu).1 = { s with spins := s.spins + 1, lost := s.lost + 1 }) := by
  rcases create_cases s a al sp cu with ⟨_, e⟩ | ⟨_, _, e⟩ | ⟨_, _, hc, e⟩ | ⟨_, _, e⟩ <;> rw [e] at h ⊢
  · exact Or.inl rfl
  · exact Or.inl rfl
  · exact Or.inr ⟨hc, rfl⟩
  · cases h

/-- Creating the management queue succeeds exactly on a cache not stopped that never had one; otherwise nothing
changes. -/
theorem create_mngt_spec (s : St) (a : Nat) (al sp : Bool) :
    ((createMngt s a al sp).2 = true ↔ s.mngt = none ∧ s.frozen = false ∧ al = true ∧ sp = true) ∧
    ((createMngt s a al sp).2 = false → (createMngt s a al sp).1 = s) ∧
    ((createMngt s a al sp).2 = true → seen (createMngt s a al sp).1 a = some (s.next, 1, true) ∧
      (∀ b, b ≠ a → seen (createMngt s a al sp).1 b = seen s b) ∧ (createMngt s a al sp).1.list = s.list ∧
      (createMngt s a al sp).1.mngt = some a ∧ (createMngt s a al sp).1.crefs = s.crefs + 1 ∧
      (createMngt s a al sp).1.next = s.next + 1 ∧ (createMngt s a al sp).1.cuts = s.cuts) := by
  rcases createMngt_cases s a al sp with ⟨hb, e⟩ | ⟨hn, hf, hb, e⟩ <;> rw [e]
  · refine ⟨⟨fun h => (by cases h), ?_⟩, fun _ => rfl, fun h => (by cases h)⟩
    rintro ⟨h1, h2, h3, h4⟩
    simp [h1, h2, h3, h4] at hb
  · simp at hb
    refine ⟨⟨fun _ => ⟨hn, hf, hb.1, hb.2⟩, fun _ => rfl⟩, fun h => (by cases h), fun _ =>
      ⟨?_, ?_, rfl, rfl, rfl, rfl, rfl⟩⟩
    · simp [seen, at?]
    · intro b hb
      have : ¬ a = b := fun e => hb e.symm
      simp [seen, at?, this]

/-- The pointer to the management queue, once set, stays: no second one is ever created. -/
theorem mngt_once {s t : St} (h : Step s t) {a : Nat} (hm : s.mngt = some a) : t.mngt = some a := by
  obtain ⟨o, _, rfl⟩ := h
  cases o with
  | create b al sp cu =>
    show (create s b al sp cu).1.mngt = _
    rcases create_cases s b al sp cu with ⟨_, e⟩ | ⟨_, _, e⟩ | ⟨_, _, _, e⟩ | ⟨_, _, e⟩ <;> rw [e] <;> exact hm
  | createMngt b al sp =>
    show (createMngt s b al sp).1.mngt = _
    rcases createMngt_cases s b al sp with ⟨_, e⟩ | ⟨hn, _, _, _⟩
    · rw [e]; exact hm
    · rw [hm] at hn; cases hn
  | get b => exact hm
  | put b => exact (put_mngt_ptr s b).trans hm
  | cget =>
    show (if s.frozen then s else { s with crefs := s.crefs + 1, cuser := s.cuser + 1 }).mngt = _
    split <;> exact hm
  | cput => exact (cput_mngt _).trans hm
  | stop => exact (cput_mngt _).trans ((puts_mngt_ptr s s.list).trans hm)

/-- Every spinlock initialised is that of a live queue or was lost. -/
theorem spins_counted {s : St} (h : Reach Init Step s) : s.spins = s.queues.length + s.lost := (InvG.reach h).spn

/-! ## The list, for callers that keep the rules -/

/-- The list of the cache has exactly the live I/O queues, each once; each has a cutoff structure. -/
theorem linked_partial {s : St} (h : Reach Init GStep s) :
    s.list.Nodup ∧ (∀ a, a ∈ s.list ↔ ∃ k r, seen s a = some (k, r, false)) ∧ s.cuts = s.list.length := by
  obtain ⟨g, i⟩ := GInv.reach h
  refine ⟨?_, fun a => ?_, i.cut⟩
  · rw [i.lst]
    exact List.Nodup.sublist (List.Sublist.map _ List.filter_sublist) g.nd
  · rw [i.lst]
    constructor
    · intro hm
      obtain ⟨q, hq, rfl⟩ := List.mem_map.1 hm
      have ⟨hq, hm⟩ := List.mem_filter.1 hq
      refine ⟨q.ser, q.refs, ?_⟩
      rw [seen, at?_mem g.nd hq]
      simpa using hm
    · rintro ⟨k, r, e⟩
      cases hq : at? s a with
      | none => simp [seen, hq] at e
      | some q =>
        simp [seen, hq] at e
        have ⟨hm, ha⟩ := at?_some hq
        exact List.mem_map.2 ⟨q, List.mem_filter.2 ⟨hm, by simp [e.2.2]⟩, ha⟩

/-- No destroyed lock is used and no freed queue put. -/
theorem no_misuse_partial {s : St} (h : Reach Init GStep s) : s.bad = false := (GInv.reach h).2.ok

/-- Stopping the cache ends every I/O queue and leaves the management queue. -/
theorem stop_spec_partial {s : St} (h : Reach Init GStep s) (hf : s.frozen = false) (hr : Rules s .stop) :
    (stop s).list = [] ∧ (∀ a k r m, seen (stop s) a = some (k, r, m) ↔ m = true ∧ seen s a = some (k, r, true)) ∧
      (stop s).frozen = true := by
  obtain ⟨g, i⟩ := GInv.reach h
  obtain ⟨_, eq, el⟩ := InvL.puts g i rfl hr
  have j : InvG (stop s) := (g.puts s.list).last (by rw [puts_frozen]; exact hf)
  have eq' : (stop s).queues = s.queues.filter (fun q => q.mngt) := by
    unfold stop; simp only []; rw [cput_queues]; exact eq
  refine ⟨?_, fun a k r m => ?_, ?_⟩
  · unfold stop; simp only []; rw [cput_list]; exact el
  · constructor
    · intro e
      cases hq : at? (stop s) a with
      | none => simp [seen, hq] at e
      | some q =>
        simp [seen, hq] at e
        obtain ⟨rfl, rfl, rfl⟩ := e
        have ⟨hm, ha⟩ := at?_some hq
        rw [eq'] at hm
        have ⟨hm, hq'⟩ := List.mem_filter.1 hm
        refine ⟨hq', ?_⟩
        rw [seen, (at?_iff g.nd).2 ⟨hm, ha⟩]
        simpa using hq'
    · rintro ⟨rfl, e⟩
      cases hq : at? s a with
      | none => simp [seen, hq] at e
      | some q =>
        simp [seen, hq] at e
        obtain ⟨rfl, rfl, hq'⟩ := e
        have ⟨hm, ha⟩ := at?_some hq
        rw [seen, (at?_iff j.nd).2 ⟨by rw [eq']; exact List.mem_filter.2 ⟨hm, hq'⟩, ha⟩]
        simpa using hq'
  · unfold stop; simp only []; rw [cput_frozen]

/-- When the cache is freed every queue created was stopped, no cutoff structure is left and no spinlock but those
lost. -/
theorem all_back_partial {s : St} (h : Reach Init GStep s) (hl : s.live = false) :
    (∀ k, k < s.next → k ∈ s.stops) ∧ s.list = [] ∧ s.cuts = 0 ∧ s.spins = s.lost := by
  obtain ⟨g, i⟩ := GInv.reach h
  have c := g.cnt
  have lv := g.liv
  rw [hl] at lv
  have hz : s.frozen = true ∧ s.crefs = 0 := by simpa using lv.symm
  have hq : s.queues = [] := List.length_eq_zero_iff.1 (by omega)
  have e : s.list = [] := by rw [i.lst, hq]; rfl
  refine ⟨fun k hk => ?_, e, by rw [i.cut, e]; rfl, by rw [g.spn, hq]; simp⟩
  have := (g.rng k).2 hk
  rw [hq] at this
  simpa using this

/-- A visitor sees queues in the order of the list up to the first it does not return zero for, and that is the
result. -/
theorem visit_spec (f : Nat → Int) (l : List Nat) :
    (visit f l).1 <+: l ∧
    (((visit f l).2 = 0 ∧ (visit f l).1 = l ∧ ∀ a ∈ l, f a = 0) ∨
      ∃ p a, (visit f l).1 = p ++ [a] ∧ (∀ b ∈ p, f b = 0) ∧ f a ≠ 0 ∧ (visit f l).2 = f a) := by
  induction l with
  | nil => exact ⟨List.prefix_refl _, Or.inl ⟨rfl, rfl, by simp⟩⟩
  | cons a l ih =>
    unfold visit
    by_cases h : f a ≠ 0
    · rw [if_pos h]
      exact ⟨⟨l, rfl⟩, Or.inr ⟨[], a, rfl, by simp, h, rfl⟩⟩
    · rw [if_neg h]
      have h : f a = 0 := Classical.byContradiction h
      refine ⟨List.cons_prefix_cons.2 ⟨rfl, ih.1⟩, ?_⟩
      rcases ih.2 with ⟨h1, h2, h3⟩ | ⟨p, b, h1, h2, h3, h4⟩
      · refine Or.inl ⟨h1, by rw [h2], ?_⟩
        intro x hx
        rcases List.mem_cons.1 hx with rfl | hx
        · exact h
        · exact h3 x hx
      · refine Or.inr ⟨a :: p, b, by rw [h1]; rfl, ?_, h3, h4⟩
        intro x hx
        rcases List.mem_cons.1 hx with rfl | hx
        · exact h
        · exact h2 x hx

/-! ## Cases and witnesses -/

/-- A run of calls. -/
def run (l : List Op) : St := l.foldl step {}

/-- Calls may be made, one after the other. -/
def CanRun : St → List Op → Prop
  | _, [] => True
  | s, o :: l => Can s o ∧ CanRun (step s o) l

theorem reach_run {s : St} (h : Reach Init Step s) (l : List Op) (hc : CanRun s l) :
    Reach Init Step (l.foldl step s) := by
  induction l generalizing s with
  | nil => exact h
  | cons o l ih => exact ih (Reach.step h ⟨o, hc.1, rfl⟩) hc.2

/-- The same with the rules kept. -/
def GRun : St → List Op → Prop
  | _, [] => True
  | s, o :: l => Can s o ∧ Rules s o ∧ GRun (step s o) l

theorem reach_grun {s : St} (h : Reach Init GStep s) (l : List Op) (hc : GRun s l) :
    Reach Init GStep (l.foldl step s) := by
  induction l generalizing s with
  | nil => exact h
  | cons o l ih => exact ih (Reach.step h ⟨o, hc.1, hc.2.1, rfl⟩) hc.2.2

/-- A whole life: a management queue, two I/O queues of which one is put by its user, stop, the rest put. -/
def life : List Op :=
  [.createMngt 5 true true, .create 6 true true true, .create 7 true true true, .get 6, .put 6, .put 7, .stop,
    .put 5]

theorem life_ok : Reach Init GStep (run life) := by
  refine reach_grun (Reach.init rfl) life ?_
  simp [life, GRun, Can, Rules, step, at?, createMngt, create, get, put, destroy, cput, stop]

example : (run life).live = false ∧ (run life).stops = [0, 1, 2] ∧ (run life).spins = 0 := by decide +kernel
example : (run life).cuts = 0 ∧ (run life).spins = (run life).lost :=
  let h := all_back_partial life_ok (by decide +kernel)
  ⟨h.2.2.1, h.2.2.2⟩
example : (run life).stops.Nodup := (stop_once (Reach.inv (P := Reach Init Step) (fun _ h => Reach.init h)
  (fun _ _ i h => Reach.step i h.step) _ life_ok)).1

/-- Before the cache is stopped. -/
def mid : List Op := life.take 4

theorem mid_ok : Reach Init GStep (run mid) := by
  refine reach_grun (Reach.init rfl) mid ?_
  simp [mid, life, GRun, Can, Rules, step, at?, createMngt, create]

theorem mid_reach : Reach Init Step (run mid) :=
  Reach.inv (P := Reach Init Step) (fun _ h => Reach.init h) (fun _ _ i h => Reach.step i h.step) _ mid_ok

example : (run mid).list = [7, 6] ∧ (run mid).cuts = 2 ∧ (run mid).crefs = 4 := by decide +kernel
example : (run mid).live = true := cache_kept mid_reach (a := 7) (by decide +kernel)
example : ¬ (run mid).live = false := fun h => (by
  have := (cache_freed_iff mid_reach).1 h
  exact absurd this.1 (by decide +kernel))
example : step (run life) .cget = run life := (cache_refs_spec _).1 (by decide +kernel)
example : seen (get (run mid) 7) 7 = some (2, 2, false) := by
  rw [(get_spec (run mid) 7).1]; decide +kernel
example : seen (put (run mid) 6) 6 = some (1, 1, false) := (put_more mid_reach (a := 6) (k := 1) (r := 2) (m := false)
  (by decide +kernel) (by decide)).1
example : (put (run mid) 7).stops = [2] := (put_last mid_reach (a := 7) (k := 2) (m := false)
  (by decide +kernel)).2.2.1
example : (create (run mid) 9 true true true).2 = true :=
  (create_spec (run mid) 9 _ _ _).1.2 (by decide +kernel)
example : (createMngt (run mid) 9 true true).1 = run mid :=
  (create_mngt_spec (run mid) 9 true true).2.1 (by decide +kernel)
example : (step (run mid) .stop).mngt = some 5 :=
  mngt_once (a := 5) ⟨.stop, (by simp only [Can]; decide +kernel), rfl⟩ (by decide +kernel)
example : (run mid).spins = (run mid).queues.length + (run mid).lost := spins_counted mid_reach
example : 7 ∈ (run mid).list := ((linked_partial mid_ok).2.1 7).2 ⟨2, 1, by decide +kernel⟩
example : (run mid).bad = false := no_misuse_partial mid_ok
example : (create (run life) 9 true true true).1 = run life :=
  (create_fails_partial (by decide +kernel)).resolve_right (fun h => (by cases h.1))
example : (stop (run [.createMngt 5 true true, .create 6 true true true])).list = [] :=
  (stop_spec_partial (reach_grun (Reach.init rfl) _ (by simp [GRun, Can, Rules, step, at?, createMngt]))
    (by decide +kernel) (by simp [Rules, step, createMngt, create])).1
example : visit (fun a => if a = 6 then -1 else 0) [7, 6, 4] = ([7, 6], -1) := by decide

/-- Witness: creation that fails loses a spinlock. -/
theorem create_loses : ∃ s, Reach Init Step s ∧ s.queues = [] ∧ s.spins = 1 :=
  ⟨run [.create 6 true true false], reach_run (Reach.init rfl) _ (by simp [CanRun, Can, at?]), by decide +kernel,
    by decide +kernel⟩

/-- Witness: a management queue is put, an I/O queue gets its address: it is taken for the management queue, stays
in the list when it is gone, and stopping the cache puts a freed queue. -/
theorem stale_mngt : ∃ s t, Reach Init Step s ∧ Step s t ∧ s.queues = [] ∧ s.list = [5] ∧ s.cuts = 1 ∧
    s.bad = false ∧ t.bad = true := by
  refine ⟨run [.createMngt 5 true true, .put 5, .create 5 true true true, .put 5], _,
    reach_run (Reach.init rfl) _ ?_, ⟨.stop, ?_, rfl⟩, ?_, ?_, ?_, ?_, ?_⟩
  · simp [CanRun, Can, step, at?, createMngt, create, put, destroy, cput]
  · show St.frozen _ = false; decide +kernel
  all_goals decide +kernel

/-- Witness: an I/O queue held over the stop of its cache is unlinked under a destroyed lock. -/
theorem held_over_stop : ∃ s t, Reach Init Step s ∧ Step s t ∧ s.bad = false ∧ s.live = true ∧ t.bad = true := by
  refine ⟨run [.create 6 true true true, .get 6, .stop], _, reach_run (Reach.init rfl) _ ?_, ⟨.put 6, ?_, rfl⟩,
    ?_, ?_, ?_⟩
  · simp [CanRun, Can, step, at?, create, get]
  · show (at? _ 6).isSome = true; decide +kernel
  all_goals decide +kernel

end Verif.QueueLife
