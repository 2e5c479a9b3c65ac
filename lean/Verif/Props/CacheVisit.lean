import Verif.Lemma.CacheVisit

/-! C65: visiting the caches of a context, while others start and stop caches. -/

namespace Verif.CacheVisit

/-- A state of a visit with others. -/
def Run (rev : Bool) (s0 s : St) : Prop := Reach (fun s => s = s0 ∧ Init s0) (Step rev) s

theorem run_inv {rev : Bool} {s0 s : St} (h : Run rev s0 s) : Inv rev s :=
  Reach.inv (P := Inv rev) (fun s (h : s = s0 ∧ Init s0) => by rw [h.1]; exact inv_init rev s0 h.2) (inv_step rev) s h

/-- No cache is used or deallocated after it was deallocated, no reference is put that is not held, and the memory of
the copy is freed only when allocated. -/
theorem safe {rev : Bool} {s0 s : St} (h : Run rev s0 s) : s.bad = false := (run_inv h).bad

/-- While the visitor has a cache, the visit holds a reference to it besides those of others and it is not deallocated. -/
theorem visited_alive {rev : Bool} {s0 s : St} (h : Run rev s0 s) (x : Nat) (r : List Nat) (hp : s.pc = .visit x r) :
    s.freed x = false ∧ s.oth x < s.rc x := by
  have hi := run_inv h
  have hpr := hi.prog
  unfold Prog at hpr
  rw [hp] at hpr
  have hx : x ∈ held s := by unfold held; rw [hp]; exact hpr.2.2.2.2
  have h2 : 0 < (held s).count x := List.count_pos_iff.2 hx
  have := hi.rc x
  exact ⟨(held_live hi hx).1, by omega⟩

/-- The lock of the context is not held while the visitor runs, nor after the visit. -/
theorem unlocked {rev : Bool} {s0 s : St} (h : Run rev s0 s) (hp : ∀ r, s.pc ≠ .copy r) : s.lock = false := by
  rw [(run_inv h).lock]
  cases hc : s.pc with
  | copy r => exact absurd hc (hp r)
  | _ => rfl

/-- When a visit has returned, every reference it took has been given back, its memory is freed, and a cache whose last
reference that was is deallocated only if it is being stopped and is off the list. -/
theorem returned {rev : Bool} {s0 s : St} (h : Run rev s0 s) (e : Int) (hp : s.pc = .ret e) :
    (∀ x, s.rc x = s.oth x) ∧ s.mem = false ∧ s.lock = false ∧
    ∀ x, s.freed x = true → s.frz x = true ∧ x ∉ s.caches := by
  have hi := run_inv h
  refine ⟨?_, ?_, ?_, fun x hx => (hi.freed x hx).2⟩
  · intro x; rw [hi.rc x]; unfold held; rw [hp]; simp
  · rw [hi.mem, hp]; rfl
  · rw [hi.lock, hp]; rfl

/-- A visit that returns 0: the visitor got caches of the list as it was when the visit began, each at most as often as
it is there, in the order of the list or the reverse order; all but those being stopped; and always returned 0. -/
theorem complete_visit {rev : Bool} {s0 s : St} (h : Run rev s0 s) (hp : s.pc = .ret 0) :
    s.seen.Sublist (if rev then s.snap.reverse else s.snap) ∧ (∀ x ∈ s.snap, s.frz x = false → x ∈ s.seen) ∧
    s.rets = List.replicate s.seen.length 0 := by
  have hpr := (run_inv h).prog
  unfold Prog at hpr
  rw [hp] at hpr
  rcases hpr with ⟨⟨a, b⟩, c, _, d | d⟩ | d
  · obtain ⟨_, d, e⟩ := d
    refine ⟨?_, ?_, ?_⟩
    · rw [d]; unfold order
      cases rev
      · simpa using a
      · simpa using a
    · intro x hx hf; rw [d]; exact mem_order.2 (b x hx hf)
    · rw [← c]; exact List.eq_replicate_of_mem e
  · exact absurd rfl d.1
  · exact absurd d.1 (by decide)

/-- A visit that returns an error: the visitor returned it, all calls before returned 0 and none came after, and the
caches seen are the first in the order; or there was no memory and the visitor was not called. -/
theorem broken_visit {rev : Bool} {s0 s : St} (h : Run rev s0 s) (e : Int) (hp : s.pc = .ret e) (he : e ≠ 0) :
    (∃ n, s.rets = List.replicate n 0 ++ [e] ∧ s.seen.length = n + 1 ∧
      s.seen.Sublist (if rev then s.snap.reverse else s.snap)) ∨
    (e = -12 ∧ s.seen = [] ∧ s.snap ≠ []) := by
  have hpr := (run_inv h).prog
  unfold Prog at hpr
  rw [hp] at hpr
  rcases hpr with ⟨⟨a, b⟩, c, ⟨r, f⟩, d | d⟩ | d
  · exact absurd d.1 he
  · obtain ⟨_, z, d, g⟩ := d
    refine Or.inl ⟨z.length, ?_, ?_, ?_⟩
    · rw [d, ← List.eq_replicate_of_mem g]
    · rw [← c, d]; simp
    · have h1 : s.seen.Sublist (order rev s.lst) := by rw [f]; exact List.sublist_append_left ..
      refine h1.trans ?_
      unfold order
      cases rev
      · simpa using a
      · simpa using a
  · exact Or.inr ⟨d.1, d.2.1, d.2.2.2⟩

/-- No cache is visited twice. -/
theorem once {rev : Bool} {s0 s : St} (h : Run rev s0 s) (e : Int) (hp : s.pc = .ret e) (hn : s.snap.Nodup) :
    s.seen.Nodup := by
  have hr : (if rev then s.snap.reverse else s.snap).Nodup := by
    cases rev
    · simpa using hn
    · simpa using (List.reverse_perm s.snap).nodup_iff.2 hn
  by_cases he : e = 0
  · subst he; exact (complete_visit h hp).1.nodup hr
  · rcases broken_visit h e hp he with ⟨_, _, _, h1⟩ | ⟨_, h1, _⟩
    · exact h1.nodup hr
    · rw [h1]; exact List.nodup_nil

/-- The list that is copied is that of the context, which has no cache twice. -/
theorem snap_nodup {rev : Bool} {s0 s : St} (h : Run rev s0 s) (hs : s0.snap.Nodup) : s.snap.Nodup := by
  have : Inv rev s ∧ s.snap.Nodup := by
    refine Reach.inv (P := fun s => Inv rev s ∧ s.snap.Nodup) ?_ ?_ s h
    · rintro s ⟨rfl, h⟩; exact ⟨inv_init rev _ h, hs⟩
    · rintro s t ⟨hi, hn⟩ hst
      refine ⟨inv_step rev s t hi hst, ?_⟩
      cases hst with
      | e h => cases h <;> exact hn
      | v h =>
        cases h with
        | begin m hp =>
          have hc := hi.nodup
          unfold St.begin
          simp only
          split
          · exact hc
          · split <;> exact hc
        | copy x r hp =>
          have : (s.copy1 x r).snap = s.snap := by
            unfold St.copy1 St.tryGet
            simp only
            by_cases hz : s.frz x = true <;> simp [hz]
          rw [this]; exact hn
        | copied hp =>
          have : (s.copied rev).snap = s.snap := by
            unfold St.copied
            simp only
            split <;> rfl
          rw [this]; exact hn
        | back x r e hp =>
          have : (s.back r e).snap = s.snap := by
            unfold St.back
            simp only
            split <;> rfl
          rw [this]; exact hn
        | call x r hp => exact hn
        | over hp => exact hn
        | put x r e hp => exact hn
        | done e hp => exact hn
  exact this.2

/-- A visit that has not returned can go on, whatever others do. -/
theorem goes_on (rev : Bool) (s : St) (hp : ∀ e, s.pc ≠ .ret e) : ∃ t, VStep rev s t := by
  cases hc : s.pc with
  | start => exact ⟨_, .begin s true hc⟩
  | copy r =>
    cases r with
    | nil => exact ⟨_, .copied s hc⟩
    | cons x r => exact ⟨_, .copy s x r hc⟩
  | walk r =>
    cases r with
    | nil => exact ⟨_, .over s hc⟩
    | cons x r => exact ⟨_, .call s x r hc⟩
  | visit x r => exact ⟨_, .back s x r 0 hc⟩
  | puts r e =>
    cases r with
    | nil => exact ⟨_, .done s e hc⟩
    | cons x r => exact ⟨_, .put s x r e hc⟩
  | ret e => exact absurd hc (hp e)

/-! ## A case -/

/-- Two caches; the second is being stopped. -/
def ex : St :=
  { caches := [1, 2], lock := false, rc := fun x => if x = 2 then 1 else 0, frz := fun x => x == 2, mem := false, lst := [],
    pc := .start, oth := fun x => if x = 2 then 1 else 0, freed := fun _ => false, snap := [], seen := [], rets := [],
    bad := false }

theorem ex_init : Init ex :=
  ⟨rfl, rfl, rfl, fun _ => rfl, by decide, by decide, fun x h => (by cases h), rfl, rfl, rfl, rfl⟩

/-- Only the first is visited, and held while it is. -/
example : ∃ s, Run false ex s ∧ s.pc = .visit 1 [] ∧ s.rc 1 = 1 ∧ s.seen = [1] :=
  ⟨_, .step (.step (.step (.step (.step (.init ⟨rfl, ex_init⟩) (.v (.begin _ true rfl))) (.v (.copy _ 1 [2] rfl)))
    (.v (.copy _ 2 [] rfl))) (.v (.copied _ rfl))) (.v (.call _ 1 [] rfl)), rfl, rfl, rfl⟩

/-- The visitor fails: the visit returns its error with the reference given back. -/
example : ∃ s, Run true ex s ∧ s.pc = .ret 7 ∧ s.rc 1 = 0 ∧ s.seen = [1] :=
  ⟨_, (.step (.step (.step (.step (.step (.init ⟨rfl, ex_init⟩) (.v (.begin _ true rfl))) (.v (.copy _ 1 [2] rfl)))
    (.v (.copy _ 2 [] rfl))) (.v (.copied _ rfl))) (.v (.call _ 1 [] rfl)) : Run true ex _) |>.step (.v (.back _ 1 [] 7 rfl))
    |>.step (.v (.put _ 1 [] 7 rfl)) |>.step (.v (.done _ 7 rfl)), rfl, rfl, rfl⟩

end Verif.CacheVisit
