import Verif.Lemma.CacheStart

/-! C63: starting a cache succeeds with everything initialised, or fails with nothing left and the context as it was;
names of caches are unique.

Partial: undoing deinitialises one class counter too many and takes a reference of a counter already deinitialised
(`undo_counter_too_many`, `undo_lock_late`). -/

namespace Verif.CacheStart

/-! ## What is expected -/

/-- Nothing of a cache is left. -/
structure Nothing (r : R) : Prop where
  mem : r.mem = false
  lock : r.lockCnt = false ∧ r.lockObj = false ∧ r.locked = false
  cnt : r.cCache = false ∧ r.cDirty = false ∧ r.cMeta = false ∧ r.cD2c = false
  clean : ∀ k, r.clean k = false
  mutex : r.mutex = false
  spin : r.spin = false
  metad : r.metad = false

/-- Everything of a cache with `m` classes is there, locked or not, with its references. -/
structure Everything (r : R) (m : Nat) (keep : Bool) : Prop where
  mem : r.mem = true
  lock : r.lockCnt = true ∧ r.lockObj = true ∧ r.locked = keep
  cnt : r.cCache = true ∧ r.cDirty = true ∧ r.cMeta = true ∧ r.cD2c = true
  clean : ∀ k, r.clean k = true ↔ k < m
  mutex : r.mutex = true
  spin : r.spin = true
  metad : r.metad = true
  refs : r.refs = if keep then 2 else 1
  bad : r.bad = 0

/-- All the environment is asked for can be had. -/
def Avail (m : Nat) (i : I) : Prop :=
  i.ctxLock = true ∧ i.mem = true ∧ (i.lockCnt = true ∧ i.lockObj = true) ∧
    (i.cCache = true ∧ i.cDirty = true ∧ i.cMeta = true ∧ i.cD2c = true) ∧ m ≤ i.clean ∧
    (i.try' = true ∧ i.mutex = true ∧ i.spin = true ∧ i.inc = true) ∧ i.metad = true ∧ i.name = true

/-! ## Start -/

theorem nothing_bad (b : Nat) : Nothing { bad := b } :=
  ⟨rfl, ⟨rfl, rfl, rfl⟩, ⟨rfl, rfl, rfl, rfl⟩, fun _ => rfl, rfl, rfl, rfl⟩

theorem can_iff {m : Nat} {i : I} : Avail m i ↔ i.ctxLock = true ∧ can m i = true ∧ i.metad = true ∧ i.name = true := by
  unfold Avail can
  simp only [Bool.and_eq_true, decide_eq_true_eq]
  constructor
  · rintro ⟨a, b, ⟨c, d⟩, ⟨e, f, g, h⟩, j, ⟨k, l, m, n⟩, o, p⟩
    exact ⟨a, ⟨⟨⟨⟨⟨⟨⟨⟨⟨⟨⟨b, c⟩, d⟩, e⟩, f⟩, g⟩, h⟩, j⟩, k⟩, l⟩, m⟩, n⟩, o, p⟩
  · rintro ⟨a, ⟨⟨⟨⟨⟨⟨⟨⟨⟨⟨⟨b, c⟩, d⟩, e⟩, f⟩, g⟩, h⟩, j⟩, k⟩, l⟩, m⟩, n⟩, o, p⟩
    exact ⟨a, b, ⟨c, d⟩, ⟨e, f, g, h⟩, j, ⟨k, l, m, n⟩, o, p⟩

/-- All that starting does. -/
theorem start_eq {c : Ctx} (hc : c.held = false) (m n : Nat) (keep : Bool) (i : I) :
    start c m n keep i =
      if !i.ctxLock then (c, {}, .err)
      else if n ∈ c.names then (c, {}, .exist)
      else if !can m i then (c, { bad := misuse i }, .err)
      else if !(i.metad && i.name) then (c, { bad := 1 }, .err)
      else ({ c with refs := c.refs + 1, names := c.names ++ [n] }, full m true keep, .ok) := by
  obtain ⟨rf, ns, hd⟩ := c
  simp only [] at hc
  subst hc
  unfold start
  simp only []
  cases h1 : i.ctxLock with
  | false => simp
  | true =>
    simp only [Bool.not_true, Bool.false_eq_true, if_false]
    by_cases h2 : n ∈ ns
    · simp [h2]
    · rw [if_neg h2, if_neg h2, newCache_spec]
      cases h3 : can m i with
      | false => simp
      | true =>
        simp only [if_true, Bool.true_eq_false, if_false, Bool.not_true, Bool.false_eq_true]
        unfold startRest
        cases h4 : i.metad with
        | false =>
          simp only [Bool.not_false, if_true, Bool.false_and, handleError_spec]
          rfl
        | true =>
          cases h5 : i.name with
          | false =>
            have e : ({ full m false true with metad := true } : R) = full m true true := rfl
            simp only [Bool.not_true, Bool.not_false, if_true, Bool.and_false, Bool.false_eq_true, if_false, e,
              handleError_spec]
            rfl
          | true =>
            cases keep
            · simp only [Bool.not_true, Bool.and_true, Bool.false_eq_true, if_false]
              rfl
            · simp only [Bool.not_true, Bool.and_true, Bool.false_eq_true, if_false, if_true]
              rfl

/-- Starting succeeds exactly when the name is free and everything can be had; then the whole cache is there, the
context has one reference and this name more. -/
theorem start_ok {c : Ctx} (hc : c.held = false) (m n : Nat) (keep : Bool) (i : I) :
    ((start c m n keep i).2.2 = .ok ↔ n ∉ c.names ∧ Avail m i) ∧
    ((start c m n keep i).2.2 = .ok → Everything (start c m n keep i).2.1 m keep ∧
      (start c m n keep i).1 = { c with refs := c.refs + 1, names := c.names ++ [n] }) := by
  rw [can_iff, start_eq hc]
  cases h1 : i.ctxLock with
  | false => simp
  | true =>
    by_cases h2 : n ∈ c.names
    · simp [h2]
    · cases h3 : can m i with
      | false => simp [h2]
      | true =>
        cases h4 : i.metad with
        | false => simp [h2]
        | true =>
          cases h5 : i.name with
          | false => simp [h2]
          | true =>
            simp only [Bool.not_true, Bool.false_eq_true, if_false, Bool.and_true, h2, not_false_eq_true, and_self,
              true_and]
            exact fun _ => ⟨⟨rfl, ⟨rfl, rfl, rfl⟩, ⟨rfl, rfl, rfl, rfl⟩, fun k => by simp [full], rfl, rfl, rfl, rfl, rfl⟩,
              trivial⟩

/-- Starting that fails leaves nothing of the cache, and the context as it was. -/
theorem start_fails {c : Ctx} (hc : c.held = false) {m n : Nat} {keep : Bool} {i : I}
    (h : (start c m n keep i).2.2 ≠ .ok) :
    Nothing (start c m n keep i).2.1 ∧ (start c m n keep i).1 = c := by
  rw [start_eq hc] at h ⊢
  split
  · exact ⟨nothing_bad 0, rfl⟩
  · split
    · exact ⟨nothing_bad 0, rfl⟩
    · split
      · exact ⟨nothing_bad _, rfl⟩
      · split
        · exact ⟨nothing_bad _, rfl⟩
        · rename_i h1 h2 h3 h4
          rw [if_neg h1, if_neg h2, if_neg h3, if_neg h4] at h
          exact absurd rfl h

/-- A name in use is refused as such, exactly. -/
theorem start_exist {c : Ctx} (hc : c.held = false) (m n : Nat) (keep : Bool) (i : I) :
    (start c m n keep i).2.2 = .exist ↔ i.ctxLock = true ∧ n ∈ c.names := by
  rw [start_eq hc]
  cases h1 : i.ctxLock with
  | false => simp
  | true =>
    by_cases h2 : n ∈ c.names
    · simp [h2]
    · simp only [Bool.not_true, Bool.false_eq_true, if_false, h2, and_false, iff_false]
      split
      · simp
      · split <;> simp

/-- Nothing is used that is not there when starting succeeds or fails before the counters. -/
theorem no_misuse_partial {c : Ctx} (hc : c.held = false) {m n : Nat} {keep : Bool} {i : I}
    (h : (start c m n keep i).2.2 ≠ .err ∨ i.ctxLock = false ∨ i.mem = false ∨ i.lockCnt = false ∨
      i.lockObj = false) : (start c m n keep i).2.1.bad = 0 := by
  rw [start_eq hc] at h ⊢
  cases h1 : i.ctxLock with
  | false => rfl
  | true =>
    simp only [h1, Bool.not_true, Bool.false_eq_true, if_false, Bool.true_eq_false, false_or] at h ⊢
    by_cases h2 : n ∈ c.names
    · rw [if_pos h2]
    · rw [if_neg h2] at h ⊢
      cases h3 : can m i with
      | false =>
        simp only [h3, Bool.not_false, if_true, ne_eq, not_true_eq_false, false_or] at h ⊢
        show misuse i = 0
        unfold misuse
        rcases h with h | h | h <;> simp [h]
      | true =>
        have hm : i.mem = true ∧ i.lockCnt = true ∧ i.lockObj = true := by
          unfold can at h3
          simp only [Bool.and_eq_true] at h3
          exact ⟨h3.1.1.1.1.1.1.1.1.1.1.1, h3.1.1.1.1.1.1.1.1.1.1.2, h3.1.1.1.1.1.1.1.1.1.2⟩
        simp only [h3, hm.1, hm.2.1, hm.2.2, Bool.not_true, Bool.false_eq_true, if_false, Bool.true_eq_false, or_false]
          at h ⊢
        cases h4 : (i.metad && i.name) with
        | false => simp [h4] at h
        | true => rfl

/-- A failure at the counters or later has at most two misuses: one counter too many, and the counter of references
used once it is gone. -/
theorem misuse_bound {c : Ctx} (hc : c.held = false) (m n : Nat) (keep : Bool) (i : I) :
    (start c m n keep i).2.1.bad ≤ 2 := by
  rw [start_eq hc]
  split
  · exact Nat.zero_le _
  · split
    · exact Nat.zero_le _
    · split
      · show misuse i ≤ 2
        unfold misuse
        split
        · split <;> omega
        · omega
      · split
        · show 1 ≤ 2; omega
        · exact Nat.zero_le _

/-- At every moment between calls: names are unique, the context has a reference for each cache and its own, and
its lock is free. -/
theorem names_unique {c : Ctx} (h : Reach Init Step c) :
    c.names.Nodup ∧ c.refs = 1 + c.names.length ∧ c.held = false := by
  refine Reach.inv (P := fun c : Ctx => c.names.Nodup ∧ c.refs = 1 + c.names.length ∧ c.held = false) ?_ ?_ c h
  · intro c h; subst h; simp
  · rintro c d ⟨i1, i2, i3⟩ hs
    cases hs with
    | start m n keep i =>
      by_cases hk : (start c m n keep i).2.2 = .ok
      · have hn := ((start_ok i3 m n keep i).1.1 hk).1
        rw [((start_ok i3 m n keep i).2 hk).2]
        refine ⟨?_, ?_, i3⟩
        · refine List.nodup_append.2 ⟨i1, by simp, ?_⟩
          intro a ha b hb e
          have : b = n := by simpa using hb
          exact hn (this ▸ e ▸ ha)
        · simp only [List.length_append, List.length_cons, List.length_nil]; omega
      · rw [(start_fails i3 hk).2]
        exact ⟨i1, i2, i3⟩
    | remove n hn =>
      refine ⟨i1.erase n, ?_, i3⟩
      have := List.length_erase_of_mem hn
      have := List.length_pos_of_mem hn
      show c.refs - 1 = 1 + (c.names.erase n).length
      omega

/-! ## Cases and witnesses -/

/-- Everything works. -/
def fine : I :=
  { mem := true, lockCnt := true, lockObj := true, cCache := true, cDirty := true, cMeta := true, cD2c := true
    clean := 33, try' := true, mutex := true, spin := true, inc := true, ctxLock := true, metad := true, name := true }

def ctx2 : Ctx := { refs := 3, names := [4, 7] }

example : Avail 33 fine := by simp [Avail, fine]
example : (start ctx2 33 9 true fine).2.2 = .ok := (start_ok rfl 33 9 true fine).1.2 ⟨by decide, by simp [Avail, fine]⟩
example : Everything (start ctx2 33 9 false fine).2.1 33 false :=
  ((start_ok (c := ctx2) rfl 33 9 false fine).2 (by decide +kernel)).1
example : Nothing (start ctx2 33 9 false { fine with mutex := false }).2.1 :=
  (start_fails (c := ctx2) rfl (by decide +kernel)).1
example : (start ctx2 33 7 false fine).2.2 = .exist := (start_exist rfl 33 7 false fine).2 ⟨rfl, by decide⟩
example : (start ctx2 33 9 false { fine with lockObj := false }).2.1.bad = 0 :=
  no_misuse_partial rfl (by simp)
example : (start ctx2 33 9 false { fine with name := false }).2.1.bad ≤ 2 := misuse_bound rfl _ _ _ _
example : ([4, 7] : List Nat).Nodup :=
  (names_unique (c := ctx2) (Reach.step (Reach.step (Reach.init rfl) (by
    have := Step.start { refs := 1, names := [] } 33 4 false fine
    rwa [((start_ok (c := { refs := 1, names := [] }) rfl 33 4 false fine).2 (by decide +kernel)).2] at this))
    (by
      have := Step.start { refs := 2, names := [4] } 33 7 true fine
      rwa [((start_ok (c := { refs := 2, names := [4] }) rfl 33 7 true fine).2 (by decide +kernel)).2] at this))).1

/-- Witness: whichever class counter fails, and at any step after them, one counter that was not initialised is
deinitialised, and the counter of references is used after it was deinitialised. -/
theorem undo_counter_too_many {c : Ctx} (hc : c.held = false) {m n : Nat} (hn : n ∉ c.names) (keep : Bool) {k : Nat}
    (hk : k < m) : (start c m n keep { fine with clean := k }).2.1.bad = 2 := by
  rw [start_eq hc]
  have : can m { fine with clean := k } = false := by
    unfold can fine
    simp; omega
  simp only [hn, this, if_false, Bool.not_false, if_true]
  rfl

/-- Witness: when metadata cannot be initialised the counter of references is used after it was deinitialised. -/
theorem undo_lock_late {c : Ctx} (hc : c.held = false) {n : Nat} (hn : n ∉ c.names) (keep : Bool) :
    (start c 33 n keep { fine with metad := false }).2.1.bad = 1 := by
  rw [start_eq hc]
  have : can 33 { fine with metad := false } = true := by decide
  simp only [hn, this, if_false, Bool.not_true]
  rfl

end Verif.CacheStart
