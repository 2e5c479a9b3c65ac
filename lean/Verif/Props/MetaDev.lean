import Verif.Lemma.MetaDev

/-!
C49: flushes of metadata pages running at the same time.

Specification: version numbers of a page in memory and of its sectors on the device.
-/

namespace Verif.MetaDev

/-- states reached by any requests in any interleaving with changes of the memory. -/
def Reached (s : St) : Prop := ∃ rs ops, Run (init rs) ops s

theorem reached_inv {s : St} (h : Reached s) : Inv s := by
  obtain ⟨rs, ops, hr⟩ := h
  exact run_inv (init_inv rs) hr

theorem pages_step {s s' : St} {o : Op} (h : exec s o = some s') (i : Nat) :
    (s'.req i).first = (s.req i).first ∧ (s'.req i).count = (s.req i).count := by
  have key : ∀ (k : Nat) (r : Req), r.first = (s.req k).first → r.count = (s.req k).count →
      (upd s.req k r i).first = (s.req i).first ∧ (upd s.req k r i).count = (s.req i).count := by
    intro k r h1 h2
    by_cases e : i = k
    · subst e; rw [upd_self]; exact ⟨h1, h2⟩
    · rw [upd_ne _ _ e]; exact ⟨rfl, rfl⟩
  cases o <;> simp only [exec] at h <;> (repeat' split at h) <;> cases h <;>
    first
      | exact ⟨rfl, rfl⟩
      | exact key _ _ rfl rfl

theorem pages_run {s s' : St} {ops : List Op} (h : Run s ops s') (i : Nat) :
    (s'.req i).pages = (s.req i).pages := by
  induction h with
  | nil => rfl
  | snoc _ he ih =>
    rw [← ih]
    unfold Req.pages
    rw [(pages_step he i).1, (pages_step he i).2]

/-- what one step does to a sector of the device. -/
theorem dev_step {s s' : St} {o : Op} (h : exec s o = some s') (p j : Nat) :
    s'.dev p j = s.dev p j ∨
      ∃ i, (s.req i).pc = .write ∧ p ∈ (s.req i).pages ∧ s'.dev p j = (s.req i).buf p := by
  cases o with
  | apply i q m =>
    simp only [exec] at h
    split at h
    · rename_i hpc
      split at h
      · rename_i hq
        cases h
        by_cases e : p = q
        · subst e
          by_cases e2 : j = m
          · subst e2
            right
            refine ⟨i, hpc, hq.1, ?_⟩
            show upd s.dev p _ p j = _
            rw [upd_self, upd_self]
          · left
            show upd s.dev p _ p j = _
            rw [upd_self, upd_ne _ _ e2]
        · left
          show upd s.dev q _ p j = _
          rw [upd_ne _ _ e]
      · cases h
    · cases h
  | _ =>
    left
    simp only [exec] at h
    (repeat' split at h) <;> cases h <;> rfl

theorem older_step {s s' : St} {o : Op} (hs : Inv s) (h : exec s o = some s') (p j : Nat) :
    s.dev p j ≤ s'.dev p j := by
  rcases dev_step h p j with h1 | ⟨i, h1, h2, h3⟩
  · exact Nat.le_of_eq h1.symm
  · rw [h3]
    exact (hs.buf i p h2 (by simp [Req.copied, h1])).1 j

/-- C49: a sector of the metadata on the device never becomes older, however flushes overlap. -/
theorem never_older {s s' : St} {ops : List Op} (h : Reached s) (hr : Run s ops s') (p j : Nat) :
    s.dev p j ≤ s'.dev p j := by
  have hs := reached_inv h
  induction hr with
  | nil => exact Nat.le_refl _
  | snoc hr' he ih => exact Nat.le_trans ih (older_step (run_inv hs hr') he p j)

/-- C49: the device has only what memory had at some time. -/
theorem known {s : St} (h : Reached s) (p j : Nat) : s.dev p j ≤ s.mem p := (reached_inv h).le p j

/-- the request has copied page `p` no older than `v`, or stored it. -/
def Fresh (s : St) (i p v : Nat) : Prop :=
  match (s.req i).pc with
  | .idle | .lock => v ≤ s.mem p
  | .fill k => v ≤ s.mem p ∧ (p < (s.req i).first + k → v ≤ (s.req i).buf p)
  | .write => v ≤ (s.req i).buf p
  | .unlock _ ok | .done ok => ok = true → ∀ j, j < spp → v ≤ s.dev p j

theorem mem_step {s s' : St} {o : Op} (h : exec s o = some s') (p : Nat) : s.mem p ≤ s'.mem p := by
  cases o with
  | change q =>
    simp only [exec] at h
    cases h
    show s.mem p ≤ upd s.mem q _ p
    by_cases e : p = q
    · subst e; rw [upd_self]; omega
    · rw [upd_ne _ _ e]; exact Nat.le_refl _
  | _ =>
    simp only [exec] at h
    (repeat' split at h) <;> cases h <;> exact Nat.le_refl _

theorem fresh_other {s s' : St} {o : Op} (hs : Inv s) (h : exec s o = some s') {i p v : Nat}
    (hi : s'.req i = s.req i) (hf : Fresh s i p v) : Fresh s' i p v := by
  have hm := mem_step h p
  have hd := fun j => older_step hs h p j
  unfold Fresh at hf ⊢
  rw [hi]
  cases hpc : (s.req i).pc <;> simp only [hpc] at hf ⊢
  · exact Nat.le_trans hf hm
  · exact Nat.le_trans hf hm
  · exact ⟨Nat.le_trans hf.1 hm, hf.2⟩
  · exact hf
  · exact fun hok j hj => Nat.le_trans (hf hok j hj) (hd j)
  · exact fun hok j hj => Nat.le_trans (hf hok j hj) (hd j)

theorem fresh_step {s s' : St} {o : Op} (hs : Inv s) (h : exec s o = some s') {i p v : Nat}
    (hp : p ∈ (s.req i).pages) (hf : Fresh s i p v) : Fresh s' i p v := by
  have hpp := mem_pages.1 hp
  have h0 := h
  cases o with
  | change q =>
    refine fresh_other hs h0 ?_ hf
    simp only [exec] at h
    cases h; rfl
  | take k q =>
    refine fresh_other hs h0 ?_ hf
    simp only [exec] at h
    (repeat' split at h) <;> cases h <;> rfl
  | back k q =>
    refine fresh_other hs h0 ?_ hf
    simp only [exec] at h
    (repeat' split at h) <;> cases h <;> rfl
  | start k =>
    by_cases e : i = k
    · subst e
      simp only [exec] at h
      split at h
      · rename_i hpc
        cases h
        simp only [Fresh, hpc, upd_self] at hf ⊢
        exact hf
      · cases h
    · refine fresh_other hs h0 ?_ hf
      simp only [exec] at h
      (repeat' split at h) <;> cases h <;> exact upd_ne _ _ e
  | fail k =>
    by_cases e : i = k
    · subst e
      simp only [exec] at h
      split at h
      · split at h
        · cases h
          simp [Fresh, upd_self]
        · cases h
      · cases h
    · refine fresh_other hs h0 ?_ hf
      simp only [exec] at h
      (repeat' split at h) <;> cases h <;> exact upd_ne _ _ e
  | begin_ k =>
    by_cases e : i = k
    · subst e
      simp only [exec] at h
      split at h
      · rename_i hpc
        split at h
        · cases h
          simp only [Fresh, hpc, upd_self] at hf ⊢
          exact ⟨hf, fun h => by omega⟩
        · cases h
      · cases h
    · refine fresh_other hs h0 ?_ hf
      simp only [exec] at h
      (repeat' split at h) <;> cases h <;> exact upd_ne _ _ e
  | copy k =>
    by_cases e : i = k
    · subst e
      simp only [exec] at h
      split at h
      · rename_i n hpc
        split at h
        · cases h
          simp only [Fresh, hpc, upd_self] at hf ⊢
          refine ⟨hf.1, fun hlt => ?_⟩
          by_cases e : p = (s.req i).first + n
          · subst e; rw [upd_self]; exact hf.1
          · rw [upd_ne _ _ e]; exact hf.2 (by omega)
        · cases h
      · cases h
    · refine fresh_other hs h0 ?_ hf
      simp only [exec] at h
      (repeat' split at h) <;> cases h <;> exact upd_ne _ _ e
  | submit k =>
    by_cases e : i = k
    · subst e
      simp only [exec] at h
      split at h
      · rename_i n hpc
        split at h
        · cases h
        · cases h
          simp only [Fresh, hpc, upd_self] at hf ⊢
          exact hf.2 (by omega)
      · cases h
    · refine fresh_other hs h0 ?_ hf
      simp only [exec] at h
      (repeat' split at h) <;> cases h <;> exact upd_ne _ _ e
  | apply k q m =>
    by_cases e : i = k
    · subst e
      simp only [exec] at h
      split at h
      · rename_i hpc
        split at h
        · cases h
          simp only [Fresh, hpc, upd_self] at hf ⊢
          exact hf
        · cases h
      · cases h
    · refine fresh_other hs h0 ?_ hf
      simp only [exec] at h
      (repeat' split at h) <;> cases h <;> exact upd_ne _ _ e
  | finish k ok =>
    by_cases e : i = k
    · subst e
      simp only [exec] at h
      split at h
      · rename_i hpc
        split at h
        · cases h
        · rename_i hall
          cases h
          simp only [Fresh, hpc, upd_self] at hf ⊢
          intro hok j hj
          subst hok
          have hall : ((s.req i).pages.all fun p =>
              (List.range spp).all fun j => decide ((p, j) ∈ (s.req i).applied)) = true := by
            refine Classical.byContradiction fun hc => hall ⟨rfl, hc⟩
          simp only [List.all_eq_true, decide_eq_true_eq, List.mem_range] at hall
          rw [(hs.app i p j hpc (hall p hp j hj)).2]
          exact hf
      · cases h
    · refine fresh_other hs h0 ?_ hf
      simp only [exec] at h
      (repeat' split at h) <;> cases h <;> exact upd_ne _ _ e
  | next k =>
    by_cases e : i = k
    · subst e
      simp only [exec] at h
      split at h
      · rename_i n ok hpc
        split at h <;> cases h <;> simp only [Fresh, hpc, upd_self] at hf ⊢ <;> exact hf
      · cases h
    · refine fresh_other hs h0 ?_ hf
      simp only [exec] at h
      (repeat' split at h) <;> cases h <;> exact upd_ne _ _ e

/-- C49: once a flush begun at or after `s` has ended with success, each of its pages is on the device
at least as new as it was in memory at `s`; whatever else was flushed or changed meanwhile. -/
theorem durable {s s' : St} {ops : List Op} (h : Reached s) {i : Nat} (hi : (s.req i).pc = .idle)
    (hr : Run s ops s') (hd : (s'.req i).pc = .done true) {p j : Nat} (hp : p ∈ (s.req i).pages)
    (hj : j < spp) : s.mem p ≤ s'.dev p j := by
  have hs := reached_inv h
  have hf : Fresh s' i p (s.mem p) := by
    clear hd
    induction hr with
    | nil => simp [Fresh, hi]
    | snoc hr' he ih =>
      exact fresh_step (run_inv hs hr') he (by rw [pages_run hr']; exact hp) ih
  simp only [Fresh, hd] at hf
  exact hf trivial j hj

/-- C49: and it stays so. -/
theorem durable_later {s s' s'' : St} {ops ops' : List Op} (h : Reached s) {i : Nat}
    (hi : (s.req i).pc = .idle) (hr : Run s ops s') (hd : (s'.req i).pc = .done true)
    (hr' : Run s' ops' s'') {p j : Nat} (hp : p ∈ (s.req i).pages) (hj : j < spp) :
    s.mem p ≤ s''.dev p j := by
  have h1 := durable h hi hr hd hp hj
  have hs' : Reached s' := by
    obtain ⟨rs, o, h2⟩ := h
    refine ⟨rs, o ++ ops, ?_⟩
    clear hd hr' h1
    induction hr with
    | nil => simpa using h2
    | snoc _ he ih => rw [← List.append_assoc]; exact .snoc ih he
  exact Nat.le_trans h1 (never_older hs' hr' p j)

/-- C49: writes under way at the same time are for different pages. -/
theorem no_overlap {s : St} (h : Reached s) {i k p : Nat} (hi : (s.req i).pc = .write)
    (hk : (s.req k).pc = .write) (h1 : p ∈ (s.req i).pages) (h2 : p ∈ (s.req k).pages) : i = k :=
  excl (reached_inv h) h1 (by simp [Req.sure, hi]) h2 (by simp [Req.sure, hk])

/-- C49: as long as no flush failed, a page that is not being written is whole on the device: all its
sectors are of one copy of the memory. -/
theorem whole_page {s : St} (h : Reached s)
    (hok : ∀ i, (s.req i).pc ≠ .done false ∧ ∀ k, (s.req i).pc ≠ .unlock k false) {p : Nat}
    (hp : ∀ i, (s.req i).pc = .write → p ∉ (s.req i).pages) {j j' : Nat} (hj : j < spp) (hj' : j' < spp) :
    s.dev p j = s.dev p j' := by
  refine (reached_inv h).whole (fun i hf => ?_) p hp j j' hj hj'
  have := hok i
  unfold Req.failed at hf
  split at hf
  · rename_i k ok hpc
    subst hf
    exact this.2 k hpc
  · rename_i ok hpc
    subst hf
    exact this.1 hpc
  · exact hf

/-- C49: a page of no request is not written. -/
theorem untouched {s s' : St} {ops : List Op} (hr : Run s ops s') {p : Nat}
    (hp : ∀ i, p ∉ (s.req i).pages) (j : Nat) : s'.dev p j = s.dev p j := by
  induction hr with
  | nil => rfl
  | snoc hr' he ih =>
    rcases dev_step he p j with h1 | ⟨i, _, h2, _⟩
    · rw [h1, ih]
    · rw [pages_run hr'] at h2
      exact absurd h2 (hp i)

/-- C49: when no request is inside, no page is locked. -/
theorem all_unlocked {s : St} (h : Reached s)
    (hd : ∀ i, (s.req i).pc = .idle ∨ ∃ ok, (s.req i).pc = .done ok) (p : Nat) : s.owner p = none := by
  cases ho : s.owner p with
  | none => rfl
  | some i =>
    have := ((reached_inv h).own p i ho).2
    rcases hd i with h1 | ⟨ok, h1⟩ <;> simp [Req.may, h1] at this

/-! A concrete run: two overlapping flushes of pages 5-6 and 6-7; page 6 changes between. -/

/-- follow a list of steps. -/
def execAll (s : St) : List Op → Option St
  | [] => some s
  | o :: os => (exec s o).bind (fun s' => execAll s' os)

theorem run_execAll {s0 s s' : St} {ops : List Op} (hr : Run s0 ops s) (os : List Op)
    (h : execAll s os = some s') : Run s0 (ops ++ os) s' := by
  induction os generalizing s ops with
  | nil => cases h; simpa using hr
  | cons o os ih =>
    simp only [execAll, Option.bind_eq_some_iff] at h
    obtain ⟨a, ha, hb⟩ := h
    have := ih (.snoc hr ha) hb
    simpa using this

def rs0 : Nat → Nat × Nat := fun i => if i = 0 then (5, 2) else (6, 2)

def store (i p : Nat) : List Op := (List.range spp).map (fun j => .apply i p j)

def opsA : List Op := [.change 5, .change 6, .start 0, .start 1, .take 0 5, .take 0 6, .take 1 7, .back 1 7,
  .begin_ 0, .copy 0, .copy 0, .change 6]

def opsB : List Op := [.submit 0] ++ store 0 5 ++ store 0 6 ++ [.finish 0 true, .next 0, .next 0, .next 0]

def opsC : List Op := [.take 1 6, .take 1 7, .begin_ 1, .copy 1, .copy 1, .submit 1] ++ store 1 7 ++
  store 1 6 ++ [.finish 1 true, .next 1, .next 1, .next 1]

example : (execAll (init rs0) (opsA ++ opsB ++ opsC)).map
    (fun s => (s.dev 5 0, s.dev 6 7, s.mem 6, (s.req 0).pc, (s.req 1).pc)) =
      some (1, 2, 2, .done true, .done true) := by decide +kernel

example : ∃ s s' ops, Reached s ∧ (s.req 0).pc = .idle ∧ Run s ops s' ∧ (s'.req 0).pc = .done true ∧
    6 ∈ (s.req 0).pages ∧ s.mem 6 = 1 ∧ s'.dev 6 3 = 1 ∧ s'.mem 6 = 2 := by
  have h1 : (execAll (init rs0) (opsA.take 2)).any (fun s => (s.req 0).pc == .idle &&
      (s.req 0).pages == [5, 6] && s.mem 6 == 1 && (execAll s (opsA.drop 2 ++ opsB)).any
        (fun s' => (s'.req 0).pc == .done true && s'.dev 6 3 == 1 && s'.mem 6 == 2)) = true := by
    decide +kernel
  cases hs : execAll (init rs0) (opsA.take 2) with
  | none => rw [hs] at h1; cases h1
  | some s =>
    rw [hs] at h1
    simp only [Option.any_some, Bool.and_eq_true, beq_iff_eq] at h1
    obtain ⟨⟨⟨h1, h2⟩, h3⟩, h4⟩ := h1
    cases hs' : execAll s (opsA.drop 2 ++ opsB) with
    | none => rw [hs'] at h4; cases h4
    | some s' =>
      rw [hs'] at h4
      simp only [Option.any_some, Bool.and_eq_true, beq_iff_eq] at h4
      exact ⟨s, s', _, ⟨rs0, _, run_execAll .nil _ hs⟩, h1, run_execAll .nil _ hs', h4.1.1,
        by rw [h2]; simp, h3, h4.1.2, h4.2⟩

end Verif.MetaDev
