import Verif.Lemma.PassiveRef

/-!
C51: a standby cache follows the writes it receives.

Specification: a write of `bytes` at `addr` covers page `n` of the device when the bytes of this page are
among those written; the page of the buffer that goes there is the one at the same distance from `addr`.
-/

namespace Verif.Passive

/-- Specification: page `n` of the device is covered. -/
def Par.covers (w : Par) (n : Nat) : Prop := w.addr ≤ n * 4096 ∧ (n + 1) * 4096 ≤ w.addr + w.bytes

/-- Specification: the update of this request was made. -/
def Req.done (c : Cfg) (r : Req) : Prop := r.pc = .over 0 ∧ r.check c = none

/-- Writes that are accepted: aligned, 32 MiB at most, begin in the metadata, memory to be had. -/
theorem accepted_iff {c : Cfg} {r : Req} (ha : r.addr + 4096 < 2 ^ 64) : r.check c = none ↔
    r.read = false ∧ r.addr < c.total * 4096 ∧ r.addr % 4096 = 0 ∧ r.bytes % 4096 = 0 ∧
      r.bytes ≤ 32 * 2 ^ 20 ∧ r.noMem = false := by
  have hs : r.start = (r.addr + 4095) / 4096 := by
    unfold Req.start toPages pageSize
    rw [Nat.mod_eq_of_lt (by omega)]
  constructor
  · intro h
    obtain ⟨h1, h2, h3, h4, h5, h6⟩ := check_none h
    unfold pageSize at h3 h4
    rw [hs] at h2
    exact ⟨h1, by omega, h3, h4, h5, h6⟩
  · rintro ⟨h1, h2, h3, h4, h5, h6⟩
    unfold Req.check
    rw [if_neg (by simp [h1]), if_neg (by rw [hs]; omega), if_neg (by unfold pageSize; omega),
      if_neg (by omega), if_neg (by simp [h6])]

/-- The copies of an accepted write are those of the pages of the two containers it covers, from the
right place of its buffer. -/
theorem plan_exact {c : Cfg} (hc : c.Ok) {r : Req} (ha : r.addr + 4096 < 2 ^ 64) (h : r.check c = none)
    (hb : 0 < r.bytes) {g p b : Nat} : (g, p, b) ∈ r.plan c ↔
      g < 2 ∧ p < (c.seg g).pages ∧ r.par.covers ((c.seg g).offset + p) ∧
        ((c.seg g).offset + p) * 4096 = r.addr + b * 4096 := by
  have hs : r.start = (r.addr + 4095) / 4096 := by
    unfold Req.start toPages pageSize
    rw [Nat.mod_eq_of_lt (by omega)]
  obtain ⟨_, _, h3, h4, _, _⟩ := check_none h
  have hcnt := (count_of h).1
  unfold pageSize at h3 h4 hcnt
  rw [mem_plan hc h hb]
  have e : r.par.covers ((c.seg g).offset + p) ↔
      r.addr ≤ ((c.seg g).offset + p) * 4096 ∧ ((c.seg g).offset + p + 1) * 4096 ≤ r.addr + r.bytes := by
    unfold Par.covers Req.par
    exact Iff.rfl
  rw [e, hs]
  clear e hs h
  generalize (c.seg g).offset + p = N
  generalize r.count = C at *
  obtain ⟨A, hA⟩ : ∃ A, r.addr = A * 4096 := ⟨r.addr / 4096, by omega⟩
  have hq : (r.addr + 4095) / 4096 = A := by omega
  rw [hq]
  constructor
  · rintro ⟨h1, h2, h5, h6, h7⟩
    refine ⟨h1, h2, ⟨?_, ?_⟩, ?_⟩
    · rw [hA]; exact Nat.mul_le_mul_right _ h5
    · rw [hA, ← hcnt, ← Nat.add_mul]; exact Nat.mul_le_mul_right _ (by omega)
    · rw [hA, ← Nat.add_mul]; congr 1; omega
  · rintro ⟨h1, h2, ⟨h5, h6⟩, h7⟩
    exact ⟨h1, h2, by omega, by omega, by omega⟩

/-- A request is let through without an update and without an error only when it is a read or begins, rounded
up to a page, behind the metadata. -/
theorem let_through {c : Cfg} {r : Req} (ha : r.addr + 4096 < 2 ^ 64) :
    r.check c = some 0 ↔ r.read = true ∨ c.total * 4096 ≤ (r.addr + 4095) / 4096 * 4096 := by
  have hs : r.start = (r.addr + 4095) / 4096 := by
    unfold Req.start toPages pageSize
    rw [Nat.mod_eq_of_lt (by omega)]
  unfold Req.check
  rw [hs]
  split
  · rename_i h; simp [h]
  · rename_i h1
    split
    · rename_i h
      simp only [true_iff]
      exact Or.inr (Nat.mul_le_mul_right _ h)
    · rename_i h2
      have h3 : ¬ (r.read = true ∨ c.total * 4096 ≤ (r.addr + 4095) / 4096 * 4096) := by
        rintro (h | h)
        · exact h1 h
        · exact h2 (Nat.le_of_mul_le_mul_right h (by decide))
      simp only [h3, iff_false]
      split
      · decide
      · split
        · decide
        · split
          · decide
          · simp

/-- Every page of the two containers has its own lock, and the locks are those that were made. -/
theorem own_lock {c : Cfg} (hc : c.Ok) {n n' e e' : Nat} (hn : n < 2 ^ 32) (hn' : n' < 2 ^ 32)
    (h : c.entry n = some e) (h' : c.entry n' = some e') : e < c.locks ∧ (e = e' → n = n') := by
  obtain ⟨k, p, h1, h2, h3, h4⟩ := entry_some hc hn h
  obtain ⟨k', p', h1', h2', h3', h4'⟩ := entry_some hc hn' h'
  have hk : k = 0 ∨ k = 1 := by omega
  have hk' : k' = 0 ∨ k' = 1 := by omega
  unfold Cfg.locks
  have s0 : c.seg 0 = c.sb := rfl
  have s1 : c.seg 1 = c.coll := rfl
  have f0 : c.first 0 = 0 := rfl
  have f1 : c.first 1 = c.sb.pages := rfl
  clear h h' hn hn' hc h1 h1'
  rcases hk with rfl | rfl <;> rcases hk' with rfl | rfl <;> simp only [s0, s1, f0, f1] at h2 h3 h4 h2' h3' h4' <;>
    refine ⟨by omega, fun _ => by omega⟩

variable {c : Cfg} {ps : Nat → Par} {m0 : Nat → Nat → Nat} {s : St}

/-- C51: two requests never copy to the same page at the same time. -/
theorem exclusive (hc : c.Ok) (hb : ∀ i, 0 < (ps i).bytes) (h : Run c (init m0 ps) s) {i j k l g p b b' : Nat}
    (hi : (s.req i).pc = .copy k) (hj : (s.req j).pc = .copy l) (h1 : (g, p, b) ∈ (s.req i).plan c)
    (h2 : (g, p, b') ∈ (s.req j).plan c) : i = j := by
  obtain ⟨_, _, hs, _⟩ := run_invL hc hb h (init_invL c ps m0)
  have hck : ∀ x y, (s.req x).pc = .copy y → (s.req x).check c = none := by
    intro x y hx
    have := hs.gone x
    unfold Req.gone at this
    rw [hx] at this
    exact this
  have hby : ∀ x, 0 < (s.req x).bytes := by
    intro x
    have := hb x
    rw [← hs.par x] at this
    exact this
  have e1 := hs.must i k hi _ (plan_locked hc (hck i k hi) (hby i) h1)
  have e2 := hs.must j l hj _ (plan_locked hc (hck j l hj) (hby j) h2)
  rw [e1] at e2
  exact Option.some.inj e2

/-- C51: a page in memory is as it was at first or as a request that covers it wrote it. -/
theorem contents (hc : c.Ok) (hb : ∀ i, 0 < (ps i).bytes) (h : Run c (init m0 ps) s) (g p : Nat) :
    (s.by_ g p = none ∧ s.mem g p = m0 g p) ∨
    ∃ i b, s.by_ g p = some i ∧ (g, p, b) ∈ (s.req i).plan c ∧ (s.req i).par = ps i ∧ s.mem g p = (ps i).data b := by
  obtain ⟨_, _, hs, _⟩ := run_invL hc hb h (init_invL c ps m0)
  cases hby : s.by_ g p with
  | none => exact Or.inl ⟨rfl, hs.memNone g p hby⟩
  | some i =>
    obtain ⟨b, h1, h2⟩ := hs.memSome g p i hby
    refine Or.inr ⟨i, b, rfl, h1, hs.par i, ?_⟩
    rw [h2, ← hs.par i]
    rfl

/-- C51: when a request has been followed, none of its pages is as before all requests, or as written by a
request that had been followed when it was submitted. -/
theorem followed (hc : c.Ok) (hb : ∀ i, 0 < (ps i).bytes) {s0 : St} (h0 : Run c (init m0 ps) s0)
    (h : Run c s0 s) {i : Nat} (hi0 : (s0.req i).pc = .idle) (hi : (s.req i).done c)
    {g p b : Nat} (hp : (g, p, b) ∈ (s.req i).plan c) :
    ∃ j, s.by_ g p = some j ∧ ¬ (s0.req j).done c := by
  obtain ⟨f, n, hs0, _⟩ := run_invL hc hb h0 (init_invL c ps m0)
  obtain ⟨f', n', hs, hl⟩ := run_invL hc hb h hs0
  have hcop : (s.req i).copied c g p := by
    unfold Req.copied
    rw [hi.1]
    exact ⟨rfl, hi.2, b, hp⟩
  obtain ⟨j, h1, h2⟩ := hs.kept i g p hcop
  refine ⟨j, h1, fun hj => ?_⟩
  have hbj : (s0.req j).begun c := by unfold Req.begun; rw [hj.1]; exact ⟨rfl, hj.2⟩
  have hbi : (s.req i).begun c := by unfold Req.begun; rw [hi.1]; exact ⟨rfl, hi.2⟩
  have hbi0 : ¬ (s0.req i).begun c := by unfold Req.begun; rw [hi0]; exact id
  have e1 := hl.new i hbi0 hbi
  have e2 := hl.keep j hbj
  have e3 := hs0.lt j hbj
  rw [e2.2] at h2
  omega

/-- C51: of two requests that cover the same two pages, one is wholly before the other: it does not happen
that one page is left by the one and the other by the other. -/
theorem serial (hc : c.Ok) (hb : ∀ i, 0 < (ps i).bytes) (h : Run c (init m0 ps) s) {i j : Nat}
    (hi : (s.req i).done c) (hj : (s.req j).done c) {g p b b' g' p' d d' : Nat}
    (h1 : (g, p, b) ∈ (s.req j).plan c) (h2 : (g', p', d) ∈ (s.req i).plan c)
    (_h1' : (g, p, b') ∈ (s.req i).plan c) (_h2' : (g', p', d') ∈ (s.req j).plan c)
    (h3 : s.by_ g p = some i) (h4 : s.by_ g' p' = some j) : i = j := by
  obtain ⟨f, n, hs, _⟩ := run_invL hc hb h (init_invL c ps m0)
  have c1 : (s.req j).copied c g p := by unfold Req.copied; rw [hj.1]; exact ⟨rfl, hj.2, b, h1⟩
  have c2 : (s.req i).copied c g' p' := by unfold Req.copied; rw [hi.1]; exact ⟨rfl, hi.2, d, h2⟩
  obtain ⟨x, e1, e2⟩ := hs.kept j g p c1
  obtain ⟨y, e3, e4⟩ := hs.kept i g' p' c2
  rw [h3] at e1
  rw [h4] at e3
  cases e1
  cases e3
  refine hs.inj i j ?_ ?_ (by omega)
  · unfold Req.begun; rw [hi.1]; exact ⟨rfl, hi.2⟩
  · unfold Req.begun; rw [hj.1]; exact ⟨rfl, hj.2⟩

/-- C51: a request that is over has no lock; a lock that is taken is taken by a request under way. -/
theorem unlocked (hc : c.Ok) (hb : ∀ i, 0 < (ps i).bytes) (h : Run c (init m0 ps) s) {e i : Nat}
    (ho : s.owner e = some i) :
    (s.req i).pc = .lock ∨ (∃ k, (s.req i).pc = .copy k) ∨ ∃ k, (s.req i).pc = .unlock k := by
  obtain ⟨f, n, hs, _⟩ := run_invL hc hb h (init_invL c ps m0)
  have := hs.own e i ho
  unfold Req.mayHold at this
  cases hp : (s.req i).pc <;> simp [hp] at this ⊢

/-- C51: a request ends once, after device, update and submission are through. -/
theorem ends_once (h : Run c (init m0 ps) s) (i : Nat) :
    (s.req i).ends ≤ 1 ∧ ((s.req i).ends = 1 → (s.req i).pc ≠ .refused →
      (s.req i).dev = true ∧ (s.req i).ret = true ∧ ∃ e, (s.req i).pc = .over e) ∧
    ((s.req i).dev = true → (s.req i).ret = true → (∃ e, (s.req i).pc = .over e) → (s.req i).ends = 1) := by
  have hs := run_invA (init_invA ps m0) h
  have hok := hs.ok i
  by_cases h1 : (s.req i).pc = .idle
  · unfold Req.ok at hok
    rw [h1] at hok
    obtain ⟨_, h2, _, h3, h4⟩ := hok
    rw [h2, h3]
    simp
  · by_cases h2 : (s.req i).pc = .refused
    · unfold Req.ok at hok
      rw [h2] at hok
      rw [hok.2.1, h2]
      simp
    · obtain ⟨k1, k2, _, _⟩ := ok_sum hok h1 h2
      have a1 : (s.req i).dev.toNat ≤ 1 := Bool.toNat_le _
      have a2 : (s.req i).ret.toNat ≤ 1 := Bool.toNat_le _
      have a3 : (s.req i).pc.isOver.toNat ≤ 1 := Bool.toNat_le _
      refine ⟨by rw [k2]; split <;> omega, fun he _ => ?_, ?_⟩
      · rw [k2] at he
        have hr : (s.req i).remaining = 0 := by
          by_cases hh : (s.req i).remaining = 0
          · exact hh
          · rw [if_neg hh] at he; omega
        refine ⟨?_, ?_, ?_⟩
        · cases hd : (s.req i).dev
          · rw [hd] at k1; simp only [Bool.toNat_false] at k1; omega
          · rfl
        · cases hd : (s.req i).ret
          · rw [hd] at k1; simp only [Bool.toNat_false] at k1; omega
          · rfl
        · cases hp : (s.req i).pc <;> rw [hp] at k1 <;>
            simp only [Pc.isOver, Bool.toNat_false] at k1 <;> first | omega | exact ⟨_, rfl⟩
      · rintro hd hr ⟨e, hp⟩
        rw [hd, hr, hp] at k1
        simp only [Pc.isOver, Bool.toNat_true] at k1
        rw [k2, if_pos (by omega)]

/-- C51: a write whose update was not made, though it begins in the metadata, ends with an error. -/
theorem error_told (h : Run c (init m0 ps) s) {i : Nat} {e : Int} (hp : (s.req i).pc = .over e) (he : e ≠ 0) :
    (s.req i).error ≠ 0 := by
  have hs := run_invA (init_invA ps m0) h
  exact (ok_sum (hs.ok i) (by rw [hp]; simp) (by rw [hp]; simp)).2.2.2 e hp he

theorem complete_error (r : Req) (e : Int) :
    (r.complete e).1.error = if e ≠ 0 ∧ r.error = 0 then e else r.error := by
  unfold Req.complete
  simp only []
  split <;> rfl

/-- and an error of the device too. -/
theorem error_device {s' : St} {i : Nat} {e : Int} (he : e ≠ 0) (hx : exec c s (.dev i e) = some s') :
    (s'.req i).error ≠ 0 := by
  simp only [exec] at hx
  split at hx; · cases hx
  cases hx
  show ((upd s.req i _) i).error ≠ 0
  rw [upd_self]
  rw [complete_error]
  split
  · exact he
  · rename_i h0
    exact fun h1 => h0 ⟨he, h1⟩

theorem error_kept {s' : St} {o : Op} (hx : exec c s o = some s') {i : Nat} (h0 : (s.req i).error ≠ 0)
    (hi : (s.req i).pc ≠ .idle) : (s'.req i).error = (s.req i).error := by
  have hcm : ∀ (j : Nat) (r : Req) (e : Int), r.error = (s.req j).error →
      ((s.complete j r e).req i).error = (s.req i).error := by
    intro j r e hr
    show ((upd s.req j _) i).error = _
    by_cases e1 : i = j
    · subst e1
      rw [upd_self, complete_error, if_neg (fun hh => h0 (hr ▸ hh.2))]
      exact hr
    · rw [upd_ne _ _ e1]
  have hup : ∀ (j : Nat) (r : Req), r.error = (s.req j).error → ((upd s.req j r) i).error = (s.req i).error := by
    intro j r hr
    by_cases e1 : i = j
    · subst e1; rw [upd_self]; exact hr
    · rw [upd_ne _ _ e1]
  cases o with
  | submit j =>
    simp only [exec] at hx
    split at hx; · cases hx
    rename_i hpc
    have hji : i ≠ j := by
      intro e1; subst e1; exact hpc hi
    split at hx
    · cases hx; exact congrArg Req.error (upd_ne _ _ hji)
    · split at hx
      · cases hx; exact congrArg Req.error (upd_ne _ _ hji)
      · cases hx; exact congrArg Req.error (upd_ne _ _ hji)
  | update j =>
    simp only [exec] at hx
    split at hx; · cases hx
    split at hx
    · cases hx; exact hcm j _ _ rfl
    · cases hx; exact hup j _ rfl
  | dev j e => simp only [exec] at hx; split at hx <;> cases hx; exact hcm j _ _ rfl
  | ret j => simp only [exec] at hx; split at hx <;> cases hx; exact hcm j _ _ rfl
  | take j e => simp only [exec] at hx; split at hx <;> cases hx; rfl
  | back j e => simp only [exec] at hx; split at hx <;> cases hx; rfl
  | fail j => simp only [exec] at hx; split at hx <;> cases hx; exact hcm j _ _ rfl
  | granted j => simp only [exec] at hx; split at hx <;> cases hx; exact hup j _ rfl
  | copy j =>
    simp only [exec] at hx
    split at hx
    · rename_i k _
      cases hx
      cases ((s.req j).plan c)[k]? with
      | none => exact hup j _ rfl
      | some x => exact hup j _ rfl
    · cases hx
  | unlock j =>
    simp only [exec] at hx
    split at hx
    · split at hx
      · cases hx; exact hup j _ rfl
      · cases hx; exact hcm j _ _ rfl
    · cases hx
  | freeze => simp only [exec] at hx; split at hx <;> cases hx; rfl
  | leave => simp only [exec] at hx; split at hx <;> cases hx; rfl
  | unfreeze => simp only [exec] at hx; split at hx <;> cases hx; rfl

/-- C51: the standby state is left only when no request is under way, and then nothing is copied any more. -/
theorem quiet_after (h : Run c (init m0 ps) s) (hst : s.standby = false) (i : Nat) :
    (s.req i).pc = .idle ∨ (s.req i).pc = .refused ∨ ∃ e, (s.req i).pc = .over e := by
  have hs := run_invA (init_invA ps m0) h
  rcases hs.quiet hst i with h1 | h1
  · exact Or.inl h1
  · by_cases h2 : (s.req i).pc = .idle
    · exact Or.inl h2
    · by_cases h3 : (s.req i).pc = .refused
      · exact Or.inr (Or.inl h3)
      · obtain ⟨k1, _, _, _⟩ := ok_sum (hs.ok i) h2 h3
        have a1 : (s.req i).dev.toNat ≤ 1 := Bool.toNat_le _
        have a2 : (s.req i).ret.toNat ≤ 1 := Bool.toNat_le _
        cases hp : (s.req i).pc <;> rw [hp] at k1 <;>
          simp only [Pc.isOver, Bool.toNat_false] at k1 <;> first | omega | exact Or.inr (Or.inr ⟨_, rfl⟩)

/-- C51: while the counter is frozen a request that comes is refused with an error, and no reference is taken. -/
theorem frozen_refused (hf : s.frozen = true) {i : Nat} (hp : (s.req i).pc = .idle) :
    ∃ s', exec c s (.submit i) = some s' ∧ (s'.req i).pc = .refused ∧ (s'.req i).error ≠ 0 ∧ s'.refs = s.refs ∧
      s'.mem = s.mem := by
  have hx : exec c s (.submit i) = some { s with
      req := upd s.req i { s.req i with pc := .refused, ends := (s.req i).ends + 1, error := errIo } } := by
    simp [exec, hp, hf]
  refine ⟨_, hx, ?_, ?_, rfl, rfl⟩
  · show ((upd s.req i _) i).pc = _; rw [upd_self]
  · show ((upd s.req i _) i).error ≠ _; rw [upd_self]; exact (by decide : errIo ≠ 0)

/-- C51, references: as long as no request was refused because the cache is not standby, the counter is the
number of requests under way: zero exactly when there is none. -/
theorem counted_partial (h : Run c (init m0 ps) s)
    (hn : ∀ i, (s.req i).pc = .refused → (s.req i).error ≠ errNotStandby) :
    0 ≤ s.refs ∧ (s.refs = 0 ↔ ∀ i, (s.req i).remaining = 0) := by
  obtain ⟨L, h1, h2, h3⟩ := (run_invA (init_invA ps m0) h).refs
  refine ⟨by omega, fun h0 i => ?_, fun h0 => ?_⟩
  · have : L = [] := List.length_eq_zero_iff.1 (by omega)
    rw [this] at h2
    refine Classical.byContradiction fun hne => ?_
    exact absurd ((h2 i).2 (Or.inl (Nat.pos_of_ne_zero hne))) (by simp)
  · cases L with
    | nil => simpa using h3
    | cons a L =>
      rcases (h2 a).1 (by simp) with hh | hh
      · have := h0 a; omega
      · exact absurd hh.2 (hn a hh.1)

/-- The defect: a request to a cache that is not standby keeps its reference for ever; from then on the counter
is never zero again, and whoever waits for that (detach, stop) waits for ever. -/
theorem reference_lost (h : Run c (init m0 ps) s) {i : Nat} (hp : (s.req i).pc = .idle) (hf : s.frozen = false)
    (hst : s.standby = false) :
    ∃ s', exec c s (.submit i) = some s' ∧ ∀ t, Run c s' t → 1 ≤ t.refs := by
  have hs := run_invA (init_invA ps m0) h
  have hx : exec c s (.submit i) = some { s with
      req := upd s.req i { s.req i with pc := .refused, ends := (s.req i).ends + 1, error := errNotStandby },
      refs := s.refs + 1 } := by
    simp [exec, hp, hf, hst]
  refine ⟨_, hx, fun t ht => ?_⟩
  have hs' := step_invA hs hx
  -- refused stays refused
  have key : ∀ {a b : St}, Run c a b → InvA a → (a.req i).pc = .refused ∧ (a.req i).error = errNotStandby →
      (b.req i).pc = .refused ∧ (b.req i).error = errNotStandby := by
    intro a b hab ha hra
    induction hab with
    | refl => exact hra
    | step o hr1 h1 ih =>
      rename_i u v
      have hu := run_invA ha hr1
      refine ⟨?_, ?_⟩
      · -- pc
        have hcm : ∀ (j : Nat) (r : Req) (e : Int), (j = i → r.pc = .refused) →
            ((u.complete j r e).req i).pc = .refused := by
          intro j r e hr
          show ((upd u.req j _) i).pc = _
          by_cases e1 : i = j
          · rw [e1, upd_self, complete_pc]; exact hr e1.symm
          · rw [upd_ne _ _ e1]; exact ih.1
        have hup : ∀ (j : Nat) (r : Req), (j = i → r.pc = .refused) → ((upd u.req j r) i).pc = .refused := by
          intro j r hr
          by_cases e1 : i = j
          · rw [e1, upd_self]; exact hr e1.symm
          · rw [upd_ne _ _ e1]; exact ih.1
        have hex : ∀ (j : Nat) (x : Pc), (u.req j).pc = x → x ≠ .refused → j = i → False := by
          intro j x hx hne e1
          rw [e1, ih.1] at hx
          exact hne hx.symm
        cases o with
        | submit j =>
          simp only [exec] at h1
          split at h1; · cases h1
          rename_i hpc
          replace hpc : (u.req j).pc = .idle := Classical.byContradiction hpc
          split at h1
          · cases h1; exact hup j _ fun _ => rfl
          · split at h1
            · cases h1; exact hup j _ fun _ => rfl
            · cases h1; exact hup j _ fun e1 => absurd e1 (hex j _ hpc (by simp))
        | update j =>
          simp only [exec] at h1
          split at h1; · cases h1
          rename_i hpc
          replace hpc : (u.req j).pc = .sent := Classical.byContradiction hpc
          split at h1
          · cases h1; exact hcm j _ _ fun e1 => absurd e1 (hex j _ hpc (by simp))
          · cases h1; exact hup j _ fun e1 => absurd e1 (hex j _ hpc (by simp))
        | dev j e =>
          simp only [exec] at h1
          split at h1; · cases h1
          rename_i hh
          cases h1
          exact hcm j _ _ fun e1 => absurd (Or.inr (Or.inr (e1 ▸ ih.1))) hh
        | ret j =>
          simp only [exec] at h1
          split at h1; · cases h1
          rename_i hh
          cases h1
          exact hcm j _ _ fun e1 => absurd (Or.inr (Or.inr (Or.inl (e1 ▸ ih.1)))) hh
        | take j e => simp only [exec] at h1; split at h1 <;> cases h1; exact ih.1
        | back j e => simp only [exec] at h1; split at h1 <;> cases h1; exact ih.1
        | fail j =>
          simp only [exec] at h1
          split at h1
          · rename_i hh
            cases h1
            exact hcm j _ _ fun e1 => absurd e1 (hex j _ hh.1 (by simp))
          · cases h1
        | granted j =>
          simp only [exec] at h1
          split at h1
          · rename_i hh
            cases h1
            exact hup j _ fun e1 => absurd e1 (hex j _ hh.1 (by simp))
          · cases h1
        | copy j =>
          simp only [exec] at h1
          split at h1
          · rename_i k hpc
            cases h1
            cases ((u.req j).plan c)[k]? with
            | none => exact hup j _ fun e1 => absurd e1 (hex j _ hpc (by simp))
            | some x => exact hup j _ fun e1 => absurd e1 (hex j _ hpc (by simp))
          · cases h1
        | unlock j =>
          simp only [exec] at h1
          split at h1
          · rename_i k hpc
            split at h1
            · cases h1; exact hup j _ fun e1 => absurd e1 (hex j _ hpc (by simp))
            · cases h1; exact hcm j _ _ fun e1 => absurd e1 (hex j _ hpc (by simp))
          · cases h1
        | freeze => simp only [exec] at h1; split at h1 <;> cases h1; exact ih.1
        | leave => simp only [exec] at h1; split at h1 <;> cases h1; exact ih.1
        | unfreeze => simp only [exec] at h1; split at h1 <;> cases h1; exact ih.1
      · rw [error_kept h1 (by rw [ih.2]; decide) (by rw [ih.1]; simp)]
        exact ih.2
  have hk := key ht hs' ⟨by simp [upd_self], by simp [upd_self]⟩
  obtain ⟨L, h1, h2, h3⟩ := (run_invA hs' ht).refs
  have hm : i ∈ L := (h2 i).2 (Or.inr hk)
  have := List.length_pos_of_mem hm
  omega

/-- The defect of `io_start_page + io_pages_count - 1`: a write of no bytes at address 0 is taken to cover all
pages of both containers, without any lock. -/
theorem empty_write_copies_all (hc : c.Ok) {r : Req} (h1 : r.read = false) (h2 : r.addr = 0) (h3 : r.bytes = 0)
    (h4 : r.noMem = false) : r.check c = none ∧ r.entries c = [] ∧
      ∀ g p, g < 2 → p < (c.seg g).pages → ∃ b, (g, p, b) ∈ r.plan c := by
  have hs : r.start = 0 := by unfold Req.start; rw [h2]; decide
  have hn : r.count = 0 := by unfold Req.count; rw [h3]; decide
  have hl : r.last = 2 ^ 64 - 1 := by unfold Req.last; rw [hs, hn]
  have k1 := hc.sb
  have k2 := hc.coll
  have k3 := hc.small
  have k4 := hc.sbPos
  refine ⟨?_, ?_, ?_⟩
  · unfold Req.check
    rw [if_neg (by simp [h1]), if_neg (by omega), if_neg (by rw [h2, h3]; decide), if_neg (by omega),
      if_neg (by simp [h4])]
  · unfold Req.entries
    rw [hn]
    rfl
  · intro g p hg hp
    have hof : (c.seg g).offset + (c.seg g).pages ≤ c.total := by
      unfold Cfg.seg
      split <;> assumption
    have key : (g, p, (c.seg g).offset + p) ∈ r.planOf c g := by
      unfold Req.planOf
      simp only [hs, hl]
      rw [if_neg (by omega), List.mem_map]
      refine ⟨p, ?_, ?_⟩
      · rw [List.mem_range]; omega
      · rw [show max 0 (c.seg g).offset - (c.seg g).offset + p = p by omega,
          show max 0 (c.seg g).offset - 0 + p = (c.seg g).offset + p by omega]
    have : g = 0 ∨ g = 1 := by omega
    refine ⟨(c.seg g).offset + p, List.mem_append.2 ?_⟩
    rcases this with rfl | rfl
    · exact Or.inl key
    · exact Or.inr key

/-- Found: an unaligned write that begins in the last page of the metadata is taken to lie behind it and is
accepted without an update. -/
theorem tail_not_refused {r : Req} (ht : 0 < c.total) (hsm : c.total < 2 ^ 32)
    (h2 : (c.total - 1) * 4096 < r.addr) (h3 : r.addr < c.total * 4096) : r.check c = some 0 := by
  unfold Req.check
  split
  · rfl
  · rw [if_pos]
    unfold Req.start toPages pageSize
    rw [Nat.mod_eq_of_lt (by omega)]
    omega

/-! Concrete cases. -/

/-- superblock in pages 0-1, collision table in pages 64-67, 128 pages of metadata. -/
def c0 : Cfg := ⟨⟨0, 2⟩, ⟨64, 4⟩, 128⟩

example : c0.Ok := by constructor <;> decide

/-- two writes over pages 63-66 and 65-68. -/
def ps0 : Nat → Par
  | 0 => ⟨false, 63 * 4096, 4 * 4096, false, fun k => 10 + k⟩
  | _ => ⟨false, 65 * 4096, 4 * 4096, false, fun k => 20 + k⟩

example : ((ps0 0).req.plan c0, (ps0 1).req.plan c0) =
    ([(1, 0, 1), (1, 1, 2), (1, 2, 3)], [(1, 1, 0), (1, 2, 1), (1, 3, 2)]) := by decide +kernel

example : ((ps0 0).req.entries c0, (ps0 1).req.entries c0) = ([2, 3, 4], [3, 4, 5]) := by decide +kernel

/-- steps one after the other. -/
def runOps (c : Cfg) (s : St) : List Op → Option St
  | [] => some s
  | o :: os => match exec c s o with
    | some s' => runOps c s' os
    | none => none

theorem runOps_run {c : Cfg} : ∀ {os : List Op} {a s t : St}, Run c a s → runOps c s os = some t → Run c a t
  | [], _, _, _, h, h1 => by cases h1; exact h
  | o :: os, _, s, _, h, h1 => by
    unfold runOps at h1
    cases hx : exec c s o with
    | none => rw [hx] at h1; cases h1
    | some s' => rw [hx] at h1; exact runOps_run (Run.step o h hx) h1

def ops0 : List Op :=
  [.submit 0, .submit 1, .update 0, .update 1, .take 0 2, .take 0 3, .take 1 5, .take 0 4, .granted 0, .ret 0,
   .copy 0, .copy 0, .copy 0, .copy 0, .unlock 0, .dev 0 0, .unlock 0, .unlock 0, .take 1 3, .unlock 0,
   .take 1 4, .granted 1, .ret 1, .copy 1, .copy 1, .unlock 0, .copy 1, .copy 1, .dev 1 0, .unlock 1, .unlock 1,
   .unlock 1, .unlock 1, .unlock 1]

/-- both are done, pages 1, 2 of the table are as written by the second. -/
example : (runOps c0 (init (fun _ _ => 0) ps0) ops0).any (fun s =>
    (s.req 0).ends == 1 && (s.req 1).ends == 1 && s.refs == 0 && (s.req 0).pc == .over 0 &&
    (List.range 5).map (s.mem 1) == [11, 20, 21, 22, 0] && (List.range 6).all (fun e => s.owner e == none)) = true := by
  decide +kernel

/-- a cache that left the standby state, and a request that comes then. -/
example : (runOps c0 (init (fun _ _ => 0) ps0) [.freeze, .leave, .unfreeze, .submit 0, .freeze]).any (fun s =>
    s.refs == 1 && (s.req 0).ends == 1 && (exec c0 s .leave).isNone) = true := by decide +kernel

end Verif.Passive
