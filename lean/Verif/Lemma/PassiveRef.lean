import Verif.Lemma.Passive

namespace Verif.Passive

def Pc.isOver : Pc → Bool
  | .over _ => true
  | _ => false

/-- completions still to come. -/
def Req.ok (r : Req) : Prop :=
  match r.pc with
  | .idle => r.remaining = 0 ∧ r.ends = 0 ∧ r.error = 0 ∧ r.dev = false ∧ r.ret = false
  | .refused => r.remaining = 0 ∧ r.ends = 1 ∧ r.error ≠ 0
  | _ => r.remaining + r.dev.toNat + r.ret.toNat + r.pc.isOver.toNat = 3 ∧
      r.ends = (if r.remaining = 0 then 1 else 0) ∧ (r.pc = .sent → r.ret = false) ∧
      (∀ e, r.pc = .over e → e ≠ 0 → r.error ≠ 0)

/-- has a reference of `refcnt.metadata`. -/
def Req.held (r : Req) : Prop := 0 < r.remaining ∨ (r.pc = .refused ∧ r.error = errNotStandby)

structure InvA (s : St) : Prop where
  ok : ∀ i, (s.req i).ok
  refs : ∃ L : List Nat, L.Nodup ∧ (∀ i, i ∈ L ↔ (s.req i).held) ∧ s.refs = L.length
  quiet : s.standby = false → ∀ i, (s.req i).pc = .idle ∨ (s.req i).remaining = 0

theorem init_invA (ps : Nat → Par) (m : Nat → Nat → Nat) : InvA (init m ps) := by
  refine ⟨fun i => by simp [init, Par.req, Req.ok], ⟨[], List.nodup_nil, fun i => ?_, rfl⟩, by simp [init]⟩
  simp [init, Par.req, Req.held]

/-- a step of one request, the reference kept or given back. -/
theorem moveA {s s' : St} (hs : InvA s) {i : Nat} {r : Req} (hr : s'.req = upd s.req i r) (hok : r.ok)
    (hst : s'.standby = s.standby)
    (hq : s.standby = false → r.pc = .idle ∨ r.remaining = 0)
    (href : ((r.held ↔ (s.req i).held) ∧ s'.refs = s.refs) ∨
      (r.held ∧ ¬ (s.req i).held ∧ s'.refs = s.refs + 1) ∨
      (¬ r.held ∧ (s.req i).held ∧ s'.refs = s.refs - 1)) : InvA s' := by
  have hne : ∀ j, j ≠ i → s'.req j = s.req j := fun j hj => by rw [hr, upd_ne _ _ hj]
  have hi : s'.req i = r := by rw [hr, upd_self]
  refine ⟨fun j => ?_, ?_, fun h j => ?_⟩
  · by_cases e : j = i
    · rw [e, hi]; exact hok
    · rw [hne j e]; exact hs.ok j
  · obtain ⟨L, h1, h2, h3⟩ := hs.refs
    rcases href with ⟨ha, hb⟩ | ⟨ha, hb, hd⟩ | ⟨ha, hb, hd⟩
    · refine ⟨L, h1, fun j => ?_, by rw [hb, h3]⟩
      by_cases e : j = i
      · rw [e, hi, ha]; exact h2 i
      · rw [hne j e]; exact h2 j
    · have hnl : i ∉ L := fun h => hb ((h2 i).1 h)
      refine ⟨i :: L, List.nodup_cons.2 ⟨hnl, h1⟩, fun j => ?_, by rw [hd, h3]; simp⟩
      by_cases e : j = i
      · rw [e, hi]; simp [ha]
      · rw [hne j e]; simp [e, h2 j]
    · have hl : i ∈ L := (h2 i).2 hb
      refine ⟨L.erase i, h1.erase i, fun j => ?_, ?_⟩
      · rw [h1.mem_erase_iff]
        by_cases e : j = i
        · rw [e, hi]; simp [ha]
        · rw [hne j e]; simp [e, h2 j]
      · rw [hd, h3, List.length_erase_of_mem hl]
        have := List.length_pos_of_mem hl
        omega
  · rw [hst] at h
    by_cases e : j = i
    · rw [e, hi]; exact hq h
    · rw [hne j e]; exact hs.quiet h j

/-- one of the three completions. -/
theorem completeA {s : St} (hs : InvA s) {i : Nat} {r : Req} {e : Int}
    (hpc : r.pc ≠ .idle) (hpc2 : r.pc ≠ .refused) (hold2 : (s.req i).pc ≠ .refused)
    (hrem : r.remaining = (s.req i).remaining) (hends : r.ends = (s.req i).ends)
    (hold : (s.req i).pc ≠ .idle)
    (hsum : r.remaining + r.dev.toNat + r.ret.toNat + r.pc.isOver.toNat = 4)
    (hsent : r.pc = .sent → r.ret = false)
    (herr : ∀ e', r.pc = .over e' → e' ≠ 0 → r.error ≠ 0 ∨ e' = e) : InvA (s.complete i r e) := by
  have hok := hs.ok i
  have hpos : 0 < r.remaining := by
    have h1 : r.dev.toNat ≤ 1 := Bool.toNat_le _
    have h2 : r.ret.toNat ≤ 1 := Bool.toNat_le _
    have h3 : r.pc.isOver.toNat ≤ 1 := Bool.toNat_le _
    omega
  have hends0 : r.ends = 0 := by
    have : (s.req i).ends = if (s.req i).remaining = 0 then 1 else 0 := by
      unfold Req.ok at hok
      cases h : (s.req i).pc <;> simp only [h] at hok
      · exact absurd h hold
      · exact hok.2.1
      · exact hok.2.1
      · exact hok.2.1
      · exact hok.2.1
      · exact hok.2.1
      · exact absurd h hold2
    rw [if_neg (by omega)] at this
    omega
  have hheld : (s.req i).held := Or.inl (by omega)
  have hpc' := complete_pc r e
  have hfields : (r.complete e).1.dev = r.dev ∧ (r.complete e).1.ret = r.ret ∧
      (r.complete e).1.remaining = r.remaining - 1 ∧
      (r.complete e).1.ends = (if r.remaining - 1 = 0 then 1 else 0) ∧
      ((r.complete e).2 = decide (r.remaining - 1 = 0)) ∧
      ((r.complete e).1.error = if e ≠ 0 ∧ r.error = 0 then e else r.error) := by
    unfold Req.complete
    simp only []
    split
    · rename_i h
      refine ⟨rfl, rfl, by simp [h], by simp [h, hends0], by simp [h], rfl⟩
    · rename_i h
      refine ⟨rfl, rfl, rfl, by simp [h, hends0], by simp [h], rfl⟩
  obtain ⟨f1, f2, f3, f4, f5, f6⟩ := hfields
  have hnr : ((r.complete e).1).held ↔ 0 < r.remaining - 1 := by
    unfold Req.held
    rw [f3, hpc']
    constructor
    · rintro (h | h)
      · exact h
      · exact absurd h.1 hpc2
    · exact Or.inl
  refine moveA hs (i := i) (r := (r.complete e).1) rfl ?_ rfl ?_ ?_
  · have hgen : (r.complete e).1.remaining + (r.complete e).1.dev.toNat + (r.complete e).1.ret.toNat +
        (r.complete e).1.pc.isOver.toNat = 3 ∧
        (r.complete e).1.ends = (if (r.complete e).1.remaining = 0 then 1 else 0) ∧
        ((r.complete e).1.pc = .sent → (r.complete e).1.ret = false) ∧
        (∀ e', (r.complete e).1.pc = .over e' → e' ≠ 0 → (r.complete e).1.error ≠ 0) := by
      rw [f1, f2, f3, hpc', f4, f6]
      refine ⟨by omega, rfl, hsent, ?_⟩
      intro e' h1 h2
      rcases herr e' h1 h2 with h3 | h3
      · rw [if_neg (fun h => h3 h.2)]; exact h3
      · by_cases h4 : r.error = 0
        · rw [if_pos ⟨h3 ▸ h2, h4⟩]; exact h3 ▸ h2
        · rw [if_neg (fun h => h4 h.2)]; exact h4
    unfold Req.ok
    cases h : (r.complete e).1.pc <;> simp only []
    · rw [hpc'] at h; exact absurd h hpc
    · rw [h] at hgen; exact ⟨hgen.1, hgen.2.1, fun _ => hgen.2.2.1 rfl, hgen.2.2.2⟩
    · rw [h] at hgen; exact hgen
    · rw [h] at hgen; exact hgen
    · rw [h] at hgen; exact hgen
    · rw [h] at hgen; exact hgen
    · rw [hpc'] at h; exact absurd h hpc2
  · intro h
    rcases hs.quiet h i with h | h
    · exact absurd h hold
    · omega
  · show _ ∨ _ ∨ _
    have hrefs : (s.complete i r e).refs = if (r.complete e).2 then s.refs - 1 else s.refs := rfl
    rw [hrefs, f5]
    by_cases h : r.remaining - 1 = 0
    · right; right
      refine ⟨fun h' => ?_, hheld, by simp [h]⟩
      have := hnr.1 h'
      omega
    · left
      exact ⟨⟨fun _ => hheld, fun _ => hnr.2 (by omega)⟩, by simp [h]⟩

/-- a step inside the update. -/
theorem insideA {s s' : St} (hs : InvA s) {i : Nat} {r : Req} (hr : s'.req = upd s.req i r)
    (hst : s'.standby = s.standby) (hrefs : s'.refs = s.refs)
    (h1 : r.remaining = (s.req i).remaining) (h2 : r.ends = (s.req i).ends) (h3 : r.dev = (s.req i).dev)
    (h4 : r.ret = (s.req i).ret)
    (hp : (s.req i).pc = .sent ∨ (s.req i).pc = .lock ∨ (∃ k, (s.req i).pc = .copy k) ∨ (∃ k, (s.req i).pc = .unlock k))
    (hp' : r.pc = .lock ∨ (∃ k, r.pc = .copy k) ∨ (∃ k, r.pc = .unlock k)) : InvA s' := by
  have hok := hs.ok i
  have hgen : (s.req i).remaining + (s.req i).dev.toNat + (s.req i).ret.toNat = 3 ∧
      (s.req i).ends = (if (s.req i).remaining = 0 then 1 else 0) := by
    unfold Req.ok at hok
    rcases hp with h | h | ⟨k, h⟩ | ⟨k, h⟩ <;> simp only [h, Pc.isOver, Bool.toNat_false, Nat.add_zero] at hok <;>
      exact ⟨hok.1, hok.2.1⟩
  have hnr : r.pc ≠ .refused := by rcases hp' with h | ⟨k, h⟩ | ⟨k, h⟩ <;> rw [h] <;> simp
  have hnr2 : (s.req i).pc ≠ .refused := by rcases hp with h | h | ⟨k, h⟩ | ⟨k, h⟩ <;> rw [h] <;> simp
  have hni : (s.req i).pc ≠ .idle := by rcases hp with h | h | ⟨k, h⟩ | ⟨k, h⟩ <;> rw [h] <;> simp
  refine moveA hs hr ?_ hst ?_ (Or.inl ⟨?_, hrefs⟩)
  · unfold Req.ok
    rw [h1, h2, h3, h4]
    rcases hp' with h | ⟨k, h⟩ | ⟨k, h⟩ <;> simp only [h, Pc.isOver, Bool.toNat_false, Nat.add_zero] <;>
      exact ⟨hgen.1, hgen.2, by simp, by simp⟩
  · intro h
    rcases hs.quiet h i with h' | h'
    · exact absurd h' hni
    · right; rw [h1]; exact h'
  · unfold Req.held
    rw [h1]
    constructor
    · rintro (h | h)
      · exact Or.inl h
      · exact absurd h.1 hnr
    · rintro (h | h)
      · exact Or.inl h
      · exact absurd h.1 hnr2

theorem idA {s s' : St} (hs : InvA s) (hr : s'.req = s.req) (hst : s'.standby = s.standby)
    (hrefs : s'.refs = s.refs) : InvA s' := by
  refine ⟨by rw [hr]; exact hs.ok, by rw [hr, hrefs]; exact hs.refs, ?_⟩
  rw [hst, hr]; exact hs.quiet

/-- what `ok` says of a request that is under way. -/
theorem ok_sum {r : Req} (h : r.ok) (h1 : r.pc ≠ .idle) (h2 : r.pc ≠ .refused) :
    r.remaining + r.dev.toNat + r.ret.toNat + r.pc.isOver.toNat = 3 ∧
      r.ends = (if r.remaining = 0 then 1 else 0) ∧ (r.pc = .sent → r.ret = false) ∧
      (∀ e, r.pc = .over e → e ≠ 0 → r.error ≠ 0) := by
  unfold Req.ok at h
  cases hp : r.pc <;> simp only [hp] at h
  · exact absurd hp h1
  · exact ⟨h.1, h.2.1, fun _ => h.2.2.1 trivial, h.2.2.2⟩
  · exact h
  · exact h
  · exact h
  · exact h
  · exact absurd hp h2

theorem step_invA {c : Cfg} {s s' : St} (hs : InvA s) {o : Op} (h : exec c s o = some s') : InvA s' := by
  cases o with
  | submit i =>
    simp only [exec] at h
    split at h; · cases h
    rename_i hpc
    replace hpc : (s.req i).pc = .idle := Classical.byContradiction hpc
    have hok := hs.ok i
    unfold Req.ok at hok
    rw [hpc] at hok
    obtain ⟨o1, o2, o3, o4, o5⟩ := hok
    have hnh : ¬ (s.req i).held := by
      rintro (h | h)
      · omega
      · rw [hpc] at h; cases h.1
    split at h
    · cases h
      refine moveA hs rfl ?_ rfl (fun _ => Or.inr o1) (Or.inl ⟨⟨fun hh => ?_, fun hh => absurd hh hnh⟩, rfl⟩)
      · show _ ∧ _ ∧ _
        exact ⟨o1, by simp [o2], show errIo ≠ 0 by decide⟩
      · rcases hh with hh | hh
        · exact absurd hh (by show ¬ 0 < (s.req i).remaining; omega)
        · exact absurd hh.2 (by show ¬ (errIo = errNotStandby); decide)
    · split at h
      · cases h
        refine moveA hs rfl ?_ rfl (fun _ => Or.inr o1) (Or.inr (Or.inl ⟨Or.inr ⟨rfl, rfl⟩, hnh, rfl⟩))
        show _ ∧ _ ∧ _
        exact ⟨o1, by simp [o2], show errNotStandby ≠ 0 by decide⟩
      · rename_i hst
        cases h
        refine moveA hs rfl ?_ rfl (fun hh => ?_) (Or.inr (Or.inl ⟨Or.inl ?_, hnh, rfl⟩))
        · show _ ∧ _ ∧ _ ∧ _
          refine ⟨by simp [o4, o5, Pc.isOver], by simp [o2], fun _ => o5, by simp⟩
        · rw [hh] at hst; exact absurd rfl hst
        · show 0 < 3; omega
  | update i =>
    simp only [exec] at h
    split at h; · cases h
    rename_i hpc
    replace hpc : (s.req i).pc = .sent := Classical.byContradiction hpc
    have hsum := ok_sum (hs.ok i) (by rw [hpc]; simp) (by rw [hpc]; simp)
    rw [hpc] at hsum
    obtain ⟨h1, h2, h3, h4⟩ := hsum
    have h1 : (s.req i).remaining + (s.req i).dev.toNat + (s.req i).ret.toNat = 3 := h1
    cases hck : (s.req i).check c with
    | some e =>
      simp only [hck] at h
      cases h
      refine completeA hs (by simp) (by simp) (by rw [hpc]; simp) rfl rfl (by rw [hpc]; simp) ?_ (by simp) ?_
      · show (s.req i).remaining + (s.req i).dev.toNat + (s.req i).ret.toNat + 1 = 4
        omega
      · intro e' he' _; right; injection he' with he'; exact he'.symm
    | none =>
      simp only [hck] at h
      cases h
      exact insideA hs rfl rfl rfl rfl rfl rfl rfl (Or.inl hpc) (Or.inl rfl)
  | dev i e =>
    simp only [exec] at h
    split at h; · cases h
    rename_i hh
    cases h
    have hd : (s.req i).dev = false := by simpa using fun h => hh (Or.inl h)
    have hni : (s.req i).pc ≠ .idle := fun h => hh (Or.inr (Or.inl h))
    have hnr : (s.req i).pc ≠ .refused := fun h => hh (Or.inr (Or.inr h))
    obtain ⟨h1, h2, h3, h4⟩ := ok_sum (hs.ok i) hni hnr
    rw [hd] at h1
    refine completeA hs hni hnr hnr rfl rfl hni ?_ h3 (fun e' he' hz => Or.inl (h4 e' he' hz))
    show (s.req i).remaining + 1 + (s.req i).ret.toNat + (s.req i).pc.isOver.toNat = 4
    simp only [Bool.toNat_false] at h1
    omega
  | ret i =>
    simp only [exec] at h
    split at h; · cases h
    rename_i hh
    cases h
    have hd : (s.req i).ret = false := by simpa using fun h => hh (Or.inl h)
    have hni : (s.req i).pc ≠ .idle := fun h => hh (Or.inr (Or.inl h))
    have hnr : (s.req i).pc ≠ .refused := fun h => hh (Or.inr (Or.inr (Or.inl h)))
    have hns : (s.req i).pc ≠ .sent := fun h => hh (Or.inr (Or.inr (Or.inr h)))
    obtain ⟨h1, h2, h3, h4⟩ := ok_sum (hs.ok i) hni hnr
    rw [hd] at h1
    refine completeA hs hni hnr hnr rfl rfl hni ?_ (fun h => absurd h hns) (fun e' he' hz => Or.inl (h4 e' he' hz))
    show (s.req i).remaining + (s.req i).dev.toNat + 1 + (s.req i).pc.isOver.toNat = 4
    simp only [Bool.toNat_false] at h1
    omega
  | take i e =>
    simp only [exec] at h
    split at h <;> cases h
    exact idA hs rfl rfl rfl
  | back i e =>
    simp only [exec] at h
    split at h <;> cases h
    exact idA hs rfl rfl rfl
  | fail i =>
    simp only [exec] at h
    split at h
    · rename_i hh
      have hpc := hh.1
      cases h
      obtain ⟨h1, h2, h3, h4⟩ := ok_sum (hs.ok i) (by rw [hpc]; simp) (by rw [hpc]; simp)
      rw [hpc] at h1
      have h1 : (s.req i).remaining + (s.req i).dev.toNat + (s.req i).ret.toNat = 3 := h1
      refine completeA hs (by simp) (by simp) (by rw [hpc]; simp) rfl rfl (by rw [hpc]; simp) ?_ (by simp) ?_
      · show (s.req i).remaining + (s.req i).dev.toNat + (s.req i).ret.toNat + 1 = 4
        omega
      · intro e' he' _; right; injection he' with he'; exact he'.symm
    · cases h
  | granted i =>
    simp only [exec] at h
    split at h
    · rename_i hh
      cases h
      exact insideA hs rfl rfl rfl rfl rfl rfl rfl (Or.inr (Or.inl hh.1)) (Or.inr (Or.inl ⟨0, rfl⟩))
    · cases h
  | copy i =>
    simp only [exec] at h
    cases hpc : (s.req i).pc <;> simp only [hpc] at h <;> try cases h
    rename_i k
    cases hpl : ((s.req i).plan c)[k]? with
    | some x =>
      obtain ⟨g, p, b⟩ := x
      exact insideA hs rfl rfl rfl rfl rfl rfl rfl (Or.inr (Or.inr (Or.inl ⟨k, hpc⟩))) (Or.inr (Or.inl ⟨k + 1, rfl⟩))
    | none =>
      exact insideA hs rfl rfl rfl rfl rfl rfl rfl (Or.inr (Or.inr (Or.inl ⟨k, hpc⟩))) (Or.inr (Or.inr ⟨0, rfl⟩))
  | unlock i =>
    simp only [exec] at h
    cases hpc : (s.req i).pc <;> simp only [hpc] at h <;> try cases h
    rename_i k
    split at h
    · cases h
      exact insideA hs rfl rfl rfl rfl rfl rfl rfl (Or.inr (Or.inr (Or.inr ⟨k, hpc⟩))) (Or.inr (Or.inr ⟨k + 1, rfl⟩))
    · cases h
      obtain ⟨h1, h2, h3, h4⟩ := ok_sum (hs.ok i) (by rw [hpc]; simp) (by rw [hpc]; simp)
      rw [hpc] at h1
      have h1 : (s.req i).remaining + (s.req i).dev.toNat + (s.req i).ret.toNat = 3 := h1
      refine completeA hs (by simp) (by simp) (by rw [hpc]; simp) rfl rfl (by rw [hpc]; simp) ?_ (by simp) ?_
      · show (s.req i).remaining + (s.req i).dev.toNat + (s.req i).ret.toNat + 1 = 4
        omega
      · intro e' he' _; right; injection he' with he'; exact he'.symm
  | freeze =>
    simp only [exec] at h
    split at h <;> cases h
    exact idA hs rfl rfl rfl
  | leave =>
    simp only [exec] at h
    split at h
    · rename_i hh
      cases h
      refine ⟨hs.ok, hs.refs, fun _ i => ?_⟩
      obtain ⟨L, h1, h2, h3⟩ := hs.refs
      right
      have : L = [] := by
        have h4 := hh.2
        rw [h3] at h4
        exact List.length_eq_zero_iff.1 (by omega)
      rw [this] at h2
      refine Classical.byContradiction fun hne => ?_
      exact absurd ((h2 i).2 (Or.inl (Nat.pos_of_ne_zero hne))) (by simp)
    · cases h
  | unfreeze =>
    simp only [exec] at h
    split at h <;> cases h
    exact idA hs rfl rfl rfl

theorem run_invA {c : Cfg} {s t : St} (hs : InvA s) (h : Run c s t) : InvA t := by
  induction h with
  | refl => exact hs
  | step o _ h1 ih => exact step_invA ih h1

end Verif.Passive
